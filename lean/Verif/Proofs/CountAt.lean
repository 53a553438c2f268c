import Verif.Model.Temporal
import Verif.Proofs.Temporal

namespace DeepGNN

/-- The result of a binary search is a boundary, whatever the order of the elements. -/
theorem bsearch_spec {α} (lt : α → Bool) (l : List α) (first len : Nat) (h : first + len ≤ l.length) :
    first ≤ bsearch lt l first len ∧ bsearch lt l first len ≤ first + len ∧
    (bsearch lt l first len = first ∨ ∃ a, l[bsearch lt l first len - 1]? = some a ∧ lt a = true) ∧
    (bsearch lt l first len = first + len ∨ ∃ a, l[bsearch lt l first len]? = some a ∧ lt a = false) := by
  induction len using Nat.strongRecOn generalizing first with
  | ind len ih =>
    rw [bsearch]
    split
    · rename_i h0; subst h0; simp
    · have hlt : first + len / 2 < l.length := by omega
      dsimp only
      rw [List.getElem?_eq_getElem hlt]
      dsimp only
      split
      · rename_i ha
        obtain ⟨h1, h2, h3, h4⟩ := ih (len - len / 2 - 1) (by omega) (first + len / 2 + 1) (by omega)
        refine ⟨by omega, by omega, Or.inr ?_, ?_⟩
        · rcases h3 with h3 | h3
          · rw [h3, Nat.add_sub_cancel, List.getElem?_eq_getElem hlt]; exact ⟨_, rfl, ha⟩
          · exact h3
        · rcases h4 with h4 | h4
          · left; omega
          · exact Or.inr h4
      · rename_i ha
        obtain ⟨h1, h2, h3, h4⟩ := ih (len / 2) (by omega) first (by omega)
        refine ⟨h1, by omega, h3, Or.inr ?_⟩
        rcases h4 with h4 | h4
        · rw [h4, List.getElem?_eq_getElem hlt]; exact ⟨_, rfl, by simpa using ha⟩
        · exact h4

/-- Order of removal times, `-1` being the last. -/
def remLe (a b : Int) : Prop := b = -1 ∨ (a ≠ -1 ∧ a ≤ b)

/-- Both creation and removal times do not decrease. -/
def TimesSorted (r : List (Int × Int)) : Prop := r.Pairwise fun x y => x.1 ≤ y.1 ∧ remLe x.2 y.2

def aliveT (ts : Int) (x : Int × Int) : Bool := decide (x.1 ≤ ts ∧ (x.2 > ts ∨ x.2 = -1))

theorem countAlive_future (ts : Int) (r : List (Int × Int)) (h : ∀ x ∈ r, x.1 > ts) :
    countAlive ts r = 0 := by
  match hr : r.drop (findStart r ts) with
  | [] => rw [countAlive]; split <;> simp_all
  | e :: rest =>
    have hlen : (e :: rest).length ≤ r.length := by rw [← hr]; simp
    have hmem : ∀ x ∈ e :: rest, x ∈ r := fun x hx => List.mem_of_mem_drop (by rw [hr]; exact hx)
    have he := h e (hmem e (by simp))
    have ih := countAlive_future ts rest (fun x hx => h x (hmem x (by simp [hx])))
    rw [countAlive]
    split
    · rfl
    · rename_i e' rest' h'
      rw [hr] at h'
      obtain ⟨rfl, rfl⟩ := List.cons.inj h'
      split
      · rfl
      · have : findLast (e :: rest) ts = 0 := by simp [findLast, he]
        simp only [this, if_true, Nat.zero_add, List.drop_succ_cons, List.drop_zero]
        exact ih
termination_by r.length
decreasing_by simp only [List.length_cons] at hlen; omega

/-- From a live first element, `find_last` skips only live elements. -/
theorem findLast_alive (ts : Int) (e : Int × Int) (rest : List (Int × Int))
    (hs : TimesSorted (e :: rest)) (he : aliveT ts e = true) :
    0 < findLast (e :: rest) ts ∧ ∀ x ∈ (e :: rest).take (findLast (e :: rest) ts), aliveT ts x = true := by
  have he' := he
  simp only [aliveT, decide_eq_true_eq] at he
  have hng : ¬ e.1 > ts := by omega
  simp only [findLast, hng, if_false]
  obtain ⟨-, hle, h3, h4⟩ := bsearch_spec (fun a : Int × Int => decide (¬ (a.2 > e.2 ∨ a.1 > ts))) (e :: rest) 0
    (e :: rest).length (by simp)
  generalize bsearch (fun a : Int × Int => decide (¬ (a.2 > e.2 ∨ a.1 > ts))) (e :: rest) 0
    (e :: rest).length = p at hle h3 h4
  have hp : 0 < p := by
    rcases Nat.eq_zero_or_pos p with rfl | hp
    · exfalso
      rcases h4 with h4 | ⟨a, ha, hl⟩
      · simp at h4
      · simp only [List.getElem?_cons_zero, Option.some.injEq] at ha
        subst ha
        simp at hl; omega
    · exact hp
  refine ⟨hp, ?_⟩
  rcases h3 with h3 | ⟨a, ha, hl⟩
  · omega
  simp only [decide_eq_true_eq, not_or] at hl
  intro x hx
  obtain ⟨i, hi, rfl⟩ := List.getElem_of_mem hx
  rw [List.length_take] at hi
  rw [List.getElem_take]
  obtain ⟨hlt, ha⟩ := List.getElem?_eq_some_iff.1 ha
  have hpw := List.pairwise_iff_getElem.1 hs
  have h1 : ((e :: rest)[i]).1 ≤ ts := by
    by_cases hip : i = p - 1
    · subst hip; rw [ha]; omega
    · have := (hpw i (p - 1) (by omega) hlt (by omega)).1
      rw [ha] at this; omega
  have h2 : (e :: rest)[i].2 > ts ∨ (e :: rest)[i].2 = -1 := by
    by_cases hi0 : i = 0
    · subst hi0; exact he.2
    · have := (hpw 0 i (by simp) (by omega) (by omega)).2
      simp only [List.getElem_cons_zero, remLe] at this
      omega
  simp only [aliveT, decide_eq_true_eq]
  exact ⟨h1, h2⟩

theorem filter_take_drop {α} (p : α → Bool) (l : List α) (k : Nat) :
    (l.filter p).length = ((l.take k).filter p).length + ((l.drop k).filter p).length := by
  conv => lhs; rw [← List.take_append_drop k l, List.filter_append, List.length_append]

/-- The temporal count is exact when creation and removal times do not decrease. -/
theorem countAlive_eq (ts : Int) (hts : -(2 ^ 31) ≤ ts ∧ ts < 2 ^ 31) (r : List (Int × Int))
    (hs : TimesSorted r) : countAlive ts r = (r.filter (aliveT ts)).length := by
  match r, hs with
  | [], _ => exact countAlive_future ts [] (by simp)
  | f :: r', hs =>
    -- everything before the position found is dead
    have hfs : f.1 > ts ∨ ∀ x ∈ (f :: r').take (findStart (f :: r') ts), aliveT ts x = false := by
      by_cases hf1 : f.1 > ts
      · exact Or.inl hf1
      right
      simp only [findStart]
      split
      · simp
      · rename_i hal
        have hf2 : f.2 ≤ ts ∧ f.2 ≠ -1 := by omega
        have hmax : max ts f.2 = ts := by omega
        have h32 : toInt32 ts = ts := by simp only [toInt32]; omega
        simp only [hmax, h32]
        obtain ⟨-, hle, h3, h4⟩ := bsearch_spec (fun a : Int × Int => decide (a.2 ≠ -1 ∧ a.2 ≤ ts))
          (f :: r') 0 (f :: r').length (by simp)
        generalize bsearch (fun a : Int × Int => decide (a.2 ≠ -1 ∧ a.2 ≤ ts)) (f :: r') 0
          (f :: r').length = p at hle h3 h4
        intro x hx
        obtain ⟨i, hi, rfl⟩ := List.getElem_of_mem hx
        rw [List.length_take] at hi
        rw [List.getElem_take]
        rcases h3 with h3 | ⟨a, ha, hl⟩
        · omega
        obtain ⟨hlt, ha⟩ := List.getElem?_eq_some_iff.1 ha
        simp only [decide_eq_true_eq] at hl
        have hpw := List.pairwise_iff_getElem.1 hs
        have : (f :: r')[i].2 ≠ -1 ∧ (f :: r')[i].2 ≤ ts := by
          by_cases hip : i = p - 1
          · subst hip; rw [ha]; exact hl
          · have := (hpw i (p - 1) (by omega) hlt (by omega)).2
            rw [ha] at this; simp only [remLe] at this; omega
        simp only [aliveT, decide_eq_false_iff_not]; omega
    rcases hfs with hf1 | hdead
    · have hall : ∀ x ∈ f :: r', x.1 > ts := by
        intro x hx
        rcases List.mem_cons.1 hx with rfl | hx
        · exact hf1
        · have := (List.pairwise_cons.1 hs).1 x hx; omega
      rw [countAlive_future ts _ hall]
      symm
      rw [List.length_eq_zero_iff, List.filter_eq_nil_iff]
      intro x hx
      have := hall x hx
      simp only [aliveT, decide_eq_true_eq]; omega
    · have h0 : ((f :: r').take (findStart (f :: r') ts)).filter (aliveT ts) = [] := by
        rw [List.filter_eq_nil_iff]; intro x hx; rw [hdead x hx]; simp
      rw [filter_take_drop _ (f :: r') (findStart (f :: r') ts), h0, List.length_nil, Nat.zero_add]
      have hsd : TimesSorted ((f :: r').drop (findStart (f :: r') ts)) := hs.drop
      rw [countAlive]
      match hr : (f :: r').drop (findStart (f :: r') ts) with
      | [] =>
        simp only [List.filter_nil, List.length_nil]
      | e :: rest =>
        rw [hr] at hsd
        have hlen : (e :: rest).length ≤ (f :: r').length := by rw [← hr]; simp
        -- the element found is not removed yet
        have hlive : e.1 > ts ∨ aliveT ts e = true := by
          by_cases h1 : e.1 > ts
          · exact Or.inl h1
          right
          have hget : (f :: r')[findStart (f :: r') ts]? = some e := by
            have := List.getElem?_drop (xs := f :: r') (i := findStart (f :: r') ts) (j := 0)
            rw [hr] at this; simpa using this.symm
          simp only [findStart] at hget
          split at hget
          · rename_i hal
            simp only [List.getElem?_cons_zero, Option.some.injEq] at hget
            subst hget
            simp only [aliveT, decide_eq_true_eq]; exact hal
          · rename_i hal
            by_cases hf1 : f.1 > ts
            · -- then everything is in the future
              have hmem : e ∈ f :: r' := List.mem_of_mem_drop (by rw [hr]; simp)
              rcases List.mem_cons.1 hmem with rfl | hm
              · omega
              · have := (List.pairwise_cons.1 hs).1 e hm; omega
            have hmax : max ts f.2 = ts := by omega
            have h32 : toInt32 ts = ts := by simp only [toInt32]; omega
            simp only [hmax, h32] at hget
            obtain ⟨-, hle, h3, h4⟩ := bsearch_spec (fun a : Int × Int => decide (a.2 ≠ -1 ∧ a.2 ≤ ts))
              (f :: r') 0 (f :: r').length (by simp)
            rcases h4 with h4 | ⟨a, ha, hl⟩
            · rw [h4] at hget
              simp at hget
            · rw [hget] at ha
              obtain rfl := Option.some.inj ha
              simp only [decide_eq_false_iff_not] at hl
              simp only [aliveT, decide_eq_true_eq]; omega
        have future : e.1 > ts → ∀ x ∈ e :: rest, x.1 > ts := by
          intro h1 x hx
          rcases List.mem_cons.1 hx with rfl | hx
          · exact h1
          · have := (List.pairwise_cons.1 hsd).1 x hx; omega
        have fzero : e.1 > ts → ((e :: rest).filter (aliveT ts)).length = 0 := by
          intro h1
          rw [List.length_eq_zero_iff, List.filter_eq_nil_iff]
          intro x hx
          have := future h1 x hx
          simp only [aliveT, decide_eq_true_eq]; omega
        split
        · rename_i h'; simp at h'
        · rename_i e' rest' h'
          obtain ⟨rfl, rfl⟩ := List.cons.inj h'
          split
          · rename_i hc; rw [fzero hc.2]
          · rename_i hc
            rcases hlive with h1 | hal
            · have hd : findLast (e :: rest) ts = 0 := by simp [findLast, h1]
              simp only [hd, if_true, List.drop_succ_cons, List.drop_zero, Nat.zero_add]
              rw [fzero h1, countAlive_future ts rest (fun x hx => future h1 x (by simp [hx]))]
            · obtain ⟨hpos, hall⟩ := findLast_alive ts e rest hsd hal
              have hle : findLast (e :: rest) ts ≤ (e :: rest).length := by
                simp only [findLast]
                split
                · omega
                · have := bsearch_le (fun a : Int × Int => decide (¬ (a.2 > e.2 ∨ a.1 > ts))) (e :: rest) 0
                    (e :: rest).length
                  omega
              have hne : ¬ findLast (e :: rest) ts = 0 := by omega
              simp only [hne, if_false]
              rw [filter_take_drop _ (e :: rest) (findLast (e :: rest) ts)]
              have hfull : ((e :: rest).take (findLast (e :: rest) ts)).filter (aliveT ts) =
                  (e :: rest).take (findLast (e :: rest) ts) :=
                List.filter_eq_self.2 hall
              rw [hfull, List.length_take, Nat.min_eq_left hle]
              rw [countAlive_eq ts hts _ (hsd.drop)]
termination_by r.length
decreasing_by
  simp only [List.length_drop]
  simp only [List.length_cons] at *
  omega

variable {m : Meta} {p : Partition} {k : Nat} {edges : List GEdge}
  {xs : List ((Int × List PEdge) × Nat)}

def times (e : GEdge) : Int × Int := (e.created, e.removed)

theorem NodeTables.groupTimes (h : NodeTables m p k edges xs) (hwm : 0 ≤ m.watermark)
    {x : (Int × List PEdge) × Nat} (hx : x ∈ xs) :
    p.groupTimes (toGroup x) = some (x.1.2.map fun e => times e.1) := by
  simp only [Partition.groupTimes, toGroup, Nat.add_sub_cancel_left]
  apply mapM_range'
  intro i hi
  exact h.ts hwm x hx i hi

/-- Edges of one type have non-decreasing creation and removal times. -/
def EdgesTimesSorted (edges : List GEdge) : Prop :=
  edges.Pairwise fun x y => x.typ = y.typ → x.created ≤ y.created ∧ remLe x.removed y.removed

theorem NodeTables.neighborCountAt (h : NodeTables m p k edges xs) (hwm : 0 ≤ m.watermark)
    (hs : EdgesTimesSorted edges) (ts : Int) (hts : -(2 ^ 31) ≤ ts ∧ ts < 2 ^ 31) (types : List Int) :
    p.neighborCountAt k ts types = some ((walkEdges edges types).filter (liveB ts)).length := by
  simp only [Partition.neighborCountAt, h.groups, Option.bind_eq_bind, Option.bind_some, walk_toGroup]
  rw [List.mapM_map, mapM_some_map _ (fun x => x.1.2.map fun e => times e.1)]
  · simp only [Option.bind_some, pure, Option.some.injEq, ← h.visited_edges types]
    have key : ∀ x ∈ visited xs types, countAlive ts (x.1.2.map fun e => times e.1) =
        ((x.1.2.map (·.1)).filter (liveB ts)).length := by
      intro x hx
      have hxm := mem_visited hx
      rw [countAlive_eq ts hts]
      · have : (x.1.2.map fun e => times e.1) = (x.1.2.map (·.1)).map times := by simp
        rw [this, List.filter_map, List.length_map]; rfl
      · obtain ⟨o, ho⟩ := h.xruns
        have h1 : x.1 ∈ runs ptyp (withOffs nfeats o edges) := by
          rw [← ho]; exact List.mem_map_of_mem hxm
        have h2 : x.1.2.map (·.1) <:+: edges := by
          have := infix_flatMap (fun g : Int × List PEdge => g.2) h1
          rw [runs_flatMap] at this
          have := this.map (·.1)
          rwa [map_fst_withOffs] at this
        have h3 : (x.1.2.map (·.1)).Pairwise fun x y => x.typ = y.typ →
            x.created ≤ y.created ∧ remLe x.removed y.removed := hs.sublist h2.sublist
        rw [List.pairwise_map] at h3
        simp only [TimesSorted, List.pairwise_map]
        refine h3.imp_of_mem ?_
        intro a b ha hb hab
        obtain ⟨-, ht⟩ := h.typ_of_mem hxm
        exact hab (by rw [ht a ha, ht b hb])
    rw [List.map_map]
    generalize visited xs types = L at key
    induction L with
    | nil => rfl
    | cons a L ih =>
      simp only [List.map_cons, List.sum_cons, List.flatMap_cons, List.map_append, List.filter_append,
        List.length_append, Function.comp]
      rw [key a (by simp), ← ih (fun x hx => key x (by simp [hx]))]
  · intro x hx
    exact h.groupTimes hwm (mem_visited hx)

end DeepGNN
