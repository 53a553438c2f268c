import Verif.Proofs.Server
import Verif.Props.C57

/-
C62 Expected numbers of weighted samples, from one graph and from several servers.
-/

namespace DeepGNN

open Spec

variable {C : WeightCodec} {wm : Option Nat} {m : Meta} {parts : List (List (List Rec))} {g : Graph}

theorem rat_int_ne {a : Int} (h : a ≠ 0) : (a : Rat) ≠ 0 := by
  intro h0
  rw [show (0 : Rat) = ((0 : Int) : Rat) from rfl, Rat.intCast_inj] at h0
  exact h h0

/-- From a mean to a sum. -/
theorem sum_of_avg {α : Type} (L : List α) (hL : L ≠ []) (f : α → Int) (t c : Int) (h : t * avg L (fun a => (f a : Rat)) = c) :
    t * (L.map f).sum = L.length * c := by
  have h1 := length_ne hL
  rw [avg, rsum_ints] at h
  have : ((t * (L.map f).sum : Int) : Rat) = ((L.length * c : Int) : Rat) := by
    rw [Rat.intCast_mul, Rat.intCast_mul, ← h]
    show _ = (L.length : Rat) * _
    grind
  exact Rat.intCast_inj.1 this

theorem gridCalls_ne {M K Q R : Nat} (hM : 0 < M) (hQ : 0 < Q) : gridCalls M K Q R ≠ [] := by
  have h1 : ∀ A k, 0 < A → 0 < (tuples A k).length := by
    intro A k hA
    rw [length_tuples_nat]; exact Nat.pow_pos hA
  intro h
  obtain ⟨cs, hcs⟩ := List.exists_mem_of_length_pos (h1 M K hM)
  obtain ⟨us, hus⟩ := List.exists_mem_of_length_pos (h1 Q R hQ)
  have : gridDraws Q cs us ∈ gridCalls M K Q R := List.mem_flatMap.2 ⟨cs, hcs, List.mem_map.2 ⟨us, hus, rfl⟩⟩
  rw [h] at this
  simp at this

/-- Any number of samples for a node whose records follow each other in one partition: over all draws (`Spec.gridCalls`: coins
below `M`, numbers in the middle of `Q` equal intervals of `[0, 1)`, both fine enough for the weights), neighbour `y` is returned on average
`count` times its weight divided by the total weight.  Missing for the full property: nodes with records at several places, see
`C62_partitions_refuted`. -/
theorem C62_expected_partial (h : Built C wm m parts g) (n : Int) (types : List Int) (count : Nat) (default : Nbr) (out : List Nbr)
    (ho : out.length = count) (hgap : Spec.NoGap parts n types) (hw : C19_weightsOk parts n types) (hone : OneRun parts n)
    (hpos : 0 < ((Spec.neighbors parts n types).map (·.weight)).sum) (M Q K R : Nat) (hM0 : 0 < M) (hQ0 : 0 < Q)
    (hM : ∀ d : Nat, 0 < d → d ≤ ((Spec.neighbors parts n types).map (·.weight)).sum → d ∣ M)
    (hQ : ∀ d : Nat, 0 < d → d ≤ ((Spec.neighbors parts n types).map (·.weight)).sum → d ∣ Q)
    (hK : (Spec.neighbors parts n types).length * count ≤ K) (hR : count ≤ R) (y : Nbr) :
    ((Spec.neighbors parts n types).map (·.weight)).sum *
        ((gridCalls M K Q R).map fun D => (occurrences y (g.weightedSample1 (fun _ => D) types count default n out 0) : Int)).sum =
      (gridCalls M K Q R).length * (count * nbrWeight (Spec.neighbors parts n types) y) := by
  have hm := (server_mean h types n ⟨hgap, hw⟩ hone hpos hM0 hQ0 hM hQ count default K R hK hR y).1 out 0 ho
  apply sum_of_avg _ (gridCalls_ne hM0 hQ0)
  have e : (fun D => (((occurrences y (g.weightedSample1 (fun _ => D) types count default n out 0) : Nat) : Int) : Rat)) = fun D =>
      occ y ((g.weightedSample1 (fun _ => D) types count default n out 0).map (·.1)) := by
    funext D
    simp only [occurrences, occ]
    cases g.weightedSample1 (fun _ => D) types count default n out 0 <;> rfl
  rw [e, hm]
  have := rat_int_ne (a := nsum (neighbors parts n types)) (by have := hpos; simp only [nsum]; omega)
  show (nsum (neighbors parts n types) : Rat) * _ = _
  rw [Rat.intCast_mul]
  show _ = (count : Rat) * _
  grind

/-- From means of symmetric functions to numbers of draws. -/
theorem joint_of_mean {nbrs : List Nbr} (hpos : 0 < nsum nbrs) {M Q K R : Nat} (hM0 : 0 < M) (hQ0 : 0 < Q) (count : Nat)
    (run : WDraws → Option (List Nbr × Nat))
    (hmean : ∀ F : List Nbr → Rat, (∀ a b, a.Perm b → F a = F b) →
      (avg (gridCalls M K Q R) fun D => valueOf F ((run D).map (·.1))) = wmean nbrs count F) (ys : List Nbr) :
    nsum nbrs ^ count * ((gridCalls M K Q R).filter fun D => (run D).any (·.1.isPerm ys)).length =
      (gridCalls M K Q R).length * (((listsOf nbrs count).filter (·.isPerm ys)).map weightProduct).sum := by
  have hm := hmean (fun zs => if zs.isPerm ys then 1 else 0) (by
    intro a b hab
    have : (a.isPerm ys = true) ↔ (b.isPerm ys = true) := by
      rw [List.isPerm_iff, List.isPerm_iff]
      exact ⟨fun h => hab.symm.trans h, fun h => hab.trans h⟩
    by_cases hb : b.isPerm ys = true
    · rw [if_pos hb, if_pos (this.2 hb)]
    · rw [if_neg hb, if_neg (fun h => hb (this.1 h))])
  have hs := wmean_sum nbrs (by omega) count (fun zs => if zs.isPerm ys then 1 else 0)
  rw [← hm] at hs
  have h1 : (((listsOf nbrs count).filter (·.isPerm ys)).map weightProduct).sum =
      ((listsOf nbrs count).map fun zs => if zs.isPerm ys then weightProduct zs else 0).sum := by
    generalize listsOf nbrs count = L
    induction L with
    | nil => rfl
    | cons z L ih =>
      rw [List.filter_cons, List.map_cons, List.sum_cons, ← ih]
      by_cases hz : z.isPerm ys
      · simp [hz]
      · simp [hz]
  have h2 : (((gridCalls M K Q R).filter fun D => (run D).any (·.1.isPerm ys)).length : Int) =
      ((gridCalls M K Q R).map fun D => if (run D).any (·.1.isPerm ys) then (1 : Int) else 0).sum := by
    generalize gridCalls M K Q R = L
    induction L with
    | nil => rfl
    | cons z L ih =>
      rw [List.filter_cons, List.map_cons, List.sum_cons, ← ih]
      split <;> simp [*]; omega
  rw [h1, h2]
  apply sum_of_avg _ (gridCalls_ne hM0 hQ0)
  have e1 : (fun D => (((if (run D).any (·.1.isPerm ys) then (1 : Int) else 0) : Int) : Rat)) =
      fun D => valueOf (fun zs => if zs.isPerm ys then 1 else 0) ((run D).map (·.1)) := by
    funext D
    cases run D with
    | none => rfl
    | some z =>
      simp only [Option.any_some, Option.map_some, valueOf, Option.elim_some]
      split <;> rfl
  rw [e1, ← rsum_ints]
  have e2 : (fun zs : List Nbr => (((if zs.isPerm ys then weightProduct zs else 0 : Int) : Int) : Rat)) =
      fun zs => ((weightProduct zs : Int) : Rat) * (if zs.isPerm ys then 1 else 0) := by
    funext zs
    split <;> simp
  rw [e2, ← hs, Rat.intCast_pow]

/-- As above, the samples are independent: over all draws, the result is some order of `ys` as often as for `count` neighbours drawn one
after another by weight.  Missing for the full property: nodes with records at several places (`C62_partitions_refuted`), several servers
(`C62_joint_refuted`). -/
theorem C62_joint_partial (h : Built C wm m parts g) (n : Int) (types : List Int) (count : Nat) (default : Nbr) (out : List Nbr)
    (ho : out.length = count) (hgap : Spec.NoGap parts n types) (hw : C19_weightsOk parts n types) (hone : OneRun parts n)
    (hpos : 0 < ((Spec.neighbors parts n types).map (·.weight)).sum) (M Q K R : Nat) (hM0 : 0 < M) (hQ0 : 0 < Q)
    (hM : ∀ d : Nat, 0 < d → d ≤ ((Spec.neighbors parts n types).map (·.weight)).sum → d ∣ M)
    (hQ : ∀ d : Nat, 0 < d → d ≤ ((Spec.neighbors parts n types).map (·.weight)).sum → d ∣ Q)
    (hK : (Spec.neighbors parts n types).length * count ≤ K) (hR : count ≤ R) (ys : List Nbr) :
    ((Spec.neighbors parts n types).map (·.weight)).sum ^ count *
        ((gridCalls M K Q R).filter fun D => (g.weightedSample1 (fun _ => D) types count default n out 0).any (·.1.isPerm ys)).length =
      (gridCalls M K Q R).length *
        (((listsOf (Spec.neighbors parts n types) count).filter (·.isPerm ys)).map weightProduct).sum := by
  exact joint_of_mean (nbrs := Spec.neighbors parts n types) hpos hM0 hQ0 count _ (fun F hF => sample_joint h types n ⟨hgap, hw⟩ hone hpos
    hM0 hQ0 hM hQ count default K R hK hR F hF out 0 ho) ys

/-! Servers -/

/-- The answers of a server to a request. -/
structure ServerOk (parts : List (List (List Rec))) (types : List Int) (count : Nat) (default : Nbr) (nonzero : Prop) (n : Int)
    (a : Option (Int × List Nbr)) : Prop where
  none : a = none ↔ ∀ r ∈ allRecords parts, r.src ≠ n
  some : ∀ x, a = some x → x.1 = nsum (neighbors parts n types) ∧ x.2.length = count ∧
    (0 < x.1 → ∀ z ∈ x.2, z ∈ neighbors parts n types ∧ (nonzero → 0 < z.weight)) ∧
    (x.1 = 0 → x.2 = List.replicate count default)

theorem server_ok (h : Built C wm m parts g) (types : List Int) (n : Int) (hs : Samplable parts types n)
    (D : Nat → WDraws) (hD : ∀ i, (D i).Ok) (count : Nat) (default : Nbr) (s : Nat) :
    ∃ a s', g.serverWeighted1 D (sortUnique types) count default n s = some (a, s') ∧
      ServerOk parts types count default (∀ i j, 0 < ((D i).real j).1) n a := by
  obtain ⟨items, hg, -⟩ := h.graphOk
  rcases server_one h types n hs D hD count default s with ⟨h1, h2⟩ | ⟨h1, row, s', h2, h3, h4, h5⟩
  · refine ⟨none, s, h2, ?_, by simp⟩
    simpa using (NodeMap_none hg n).1 h1
  · refine ⟨_, s', h2, ?_, ?_⟩
    · constructor
      · simp
      · intro h; exact absurd ((NodeMap_none hg n).2 h) h1
    · rintro x hx
      obtain rfl := Option.some.inj hx
      exact ⟨rfl, h3, h4, h5⟩

theorem knownNodes_cons (n : Int) (ns : List Int) {α : Type} (a : Option α) (as : List (Option α)) :
    knownNodes (n :: ns) (a :: as) = (a.map fun x => (n, x)).toList ++ knownNodes ns as := by
  cases a <;> rfl

theorem serverLoop_ok (h : Built C wm m parts g) (types : List Int) (D : Nat → WDraws) (hD : ∀ i, (D i).Ok) (count : Nat) (default : Nbr)
    (nodes : List Int) (hs : ∀ n ∈ nodes, Samplable parts types n) (s : Nat) (r : WReply) :
    ∃ as, g.serverWeightedLoop D (sortUnique types) count default nodes s r =
        some { nodes := r.nodes ++ (wReply nodes as).nodes, nbrs := r.nbrs ++ (wReply nodes as).nbrs } ∧
      as.length = nodes.length ∧ ∀ x ∈ nodes.zip as, ServerOk parts types count default (∀ i j, 0 < ((D i).real j).1) x.1 x.2 := by
  induction nodes generalizing s r with
  | nil => exact ⟨[], by simp [Graph.serverWeightedLoop, wReply, knownNodes], rfl, by simp⟩
  | cons n ns ih =>
    obtain ⟨a, s', h1, h2⟩ := server_ok h types n (hs n (by simp)) D hD count default s
    obtain ⟨as, h3, h4, h5⟩ := ih (fun k hk => hs k (by simp [hk])) s' (a.elim r fun a =>
        { nodes := r.nodes ++ [(n, a.1)], nbrs := r.nbrs ++ a.2 })
    refine ⟨a :: as, ?_, by simp [h4], ?_⟩
    · rw [Graph.serverWeightedLoop, h1, Option.bind_some]
      dsimp only
      rw [h3]
      cases a with
      | none => simp [wReply, knownNodes_cons]
      | some a => simp [wReply, knownNodes_cons]
    · intro x hx
      rw [List.zip_cons_cons] at hx
      rcases List.mem_cons.1 hx with rfl | hx
      · exact h2
      · exact h5 x hx

theorem mapM_servers (servers : List (List (List (List Rec)) × Graph)) (hb : ∀ x ∈ servers, ∃ wm m, Built C wm m x.1 x.2)
    (Ds : List (Nat → WDraws)) (hlen : Ds.length = servers.length) (hDs : ∀ E ∈ Ds, ∀ i, (E i).Ok)
    (nonzero : Prop) (hz : nonzero → ∀ E ∈ Ds, ∀ i j, 0 < ((E i).real j).1)
    (types : List Int) (count : Nat) (default : Nbr) (nodes : List Int)
    (hs : ∀ x ∈ servers, ∀ n ∈ nodes, Samplable x.1 types n) :
    ∃ asL : List (List (Option (Int × List Nbr))),
      (((servers.map (·.2)).zip Ds).mapM fun x : Graph × (Nat → WDraws) => x.1.serverWeighted x.2 (sortUnique types) count default nodes) =
        some (asL.map (wReply nodes)) ∧
      All2 (fun (x : List (List (List Rec)) × Graph) as => as.length = nodes.length ∧
        ∀ z ∈ nodes.zip as, ServerOk x.1 types count default nonzero z.1 z.2) servers asL := by
  induction servers generalizing Ds with
  | nil => exact ⟨[], by simp, All2.nil⟩
  | cons x servers ih =>
    cases Ds with
    | nil => simp at hlen
    | cons E Ds =>
      obtain ⟨asL, h1, h2⟩ := ih (fun z hz => hb z (by simp [hz])) Ds (by simpa using hlen) (fun E hE => hDs E (by simp [hE]))
        (fun h E hE => hz h E (by simp [hE])) (fun z hz => hs z (by simp [hz]))
      obtain ⟨wm, m, hb⟩ := hb x (by simp)
      obtain ⟨as, h3, h4, h5⟩ := serverLoop_ok hb types E (hDs E (by simp)) count default nodes (hs x (by simp)) 0 ⟨[], []⟩
      refine ⟨as :: asL, ?_, All2.cons ⟨h4, ?_⟩ h2⟩
      · rw [List.map_cons, List.zip_cons_cons, List.mapM_cons, Graph.serverWeighted, h3, h1]
        rfl
      · intro z hzz
        have := h5 z hzz
        exact ⟨this.none, fun x hx => by
          obtain ⟨e1, e2, e3, e4⟩ := this.some x hx
          exact ⟨e1, e2, fun hp w hw => ⟨(e3 hp w hw).1, fun hn => (e3 hp w hw).2 (hz hn E (by simp))⟩, e4⟩⟩

theorem neighbors_unknown {n : Int} (types : List Int) (h : ∀ r ∈ allRecords parts, r.src ≠ n) : neighbors parts n types = [] := by
  simp only [neighbors, edgeRecords]
  rw [List.map_eq_nil_iff, List.filter_eq_nil_iff]
  intro r hr
  have := h r (List.mem_filter.1 hr).1
  simp [this]

/-- Total weight of the neighbours of a node over all servers. -/
def C62_weight (servers : List (List (List (List Rec)) × Graph)) (types : List Int) (n : Int) : Int :=
  (servers.map fun x => ((neighbors x.1 n types).map (·.weight)).sum).sum

theorem answers_total {servers : List (List (List (List Rec)) × Graph)} {asL : List (List (Option (Int × List Nbr)))}
    {types : List Int} {count : Nat} {default : Nbr} {nonzero : Prop} {nodes : List Int}
    (h : All2 (fun (x : List (List (List Rec)) × Graph) as => as.length = nodes.length ∧
        ∀ z ∈ nodes.zip as, ServerOk x.1 types count default nonzero z.1 z.2) servers asL) {p : Nat} {n : Int}
    (hp : nodes[p]? = some n) : totalWeight (answersAt asL p) = C62_weight servers types n := by
  induction h with
  | nil => rfl
  | cons hr _ ih =>
    rename_i x as servers asL _
    obtain ⟨hl, hr⟩ := hr
    obtain ⟨hpn, hpe⟩ := List.getElem?_eq_some_iff.1 hp
    have hz : (n, as[p]) ∈ nodes.zip as := by
      rw [List.mem_iff_getElem?]
      exact ⟨p, by rw [List.getElem?_zip_eq_some]; exact ⟨hp, List.getElem?_eq_getElem (by omega)⟩⟩
    have := hr _ hz
    have hget : as[p]?.join = as[p] := by rw [List.getElem?_eq_getElem (by omega)]; rfl
    have e1 : C62_weight (x :: servers) types n = nsum (neighbors x.1 n types) + C62_weight servers types n := by
      simp [C62_weight, nsum]
    rw [e1, ← ih]
    simp only [answersAt, List.filterMap_cons, hget]
    dsimp only at this
    cases ha : as[p] with
    | none =>
      rw [neighbors_unknown types (this.none.1 ha)]
      simp
    | some a =>
      simp only [totalWeight, List.map_cons, List.sum_cons]
      rw [(this.some a ha).1]

theorem All2.mem_right {α β : Type} {R : α → β → Prop} {l : List α} {k : List β} (h : All2 R l k) {b : β} (hb : b ∈ k) : ∃ a ∈ l, R a b := by
  induction h with
  | nil => simp at hb
  | cons hr _ ih =>
    rcases List.mem_cons.1 hb with rfl | hb
    · exact ⟨_, by simp, hr⟩
    · obtain ⟨a, ha, h⟩ := ih hb; exact ⟨a, by simp [ha], h⟩

theorem All2.mem_left {α β : Type} {R : α → β → Prop} {l : List α} {k : List β} (h : All2 R l k) {a : α} (ha : a ∈ l) : ∃ b ∈ k, R a b := by
  induction h with
  | nil => simp at ha
  | cons hr _ ih =>
    rcases List.mem_cons.1 ha with rfl | ha
    · exact ⟨_, by simp, hr⟩
    · obtain ⟨b, hb, h⟩ := ih ha; exact ⟨b, by simp [hb], h⟩

theorem All2.length {α β : Type} {R : α → β → Prop} {l : List α} {k : List β} (h : All2 R l k) : l.length = k.length := by
  induction h with
  | nil => rfl
  | cons _ _ ih => simp [ih]

/-- The answers fulfil the requirements of the client. -/
theorem answers_ok {servers : List (List (List (List Rec)) × Graph)} {asL : List (List (Option (Int × List Nbr)))}
    {types : List Int} {count : Nat} {default : Nbr} {nonzero : Prop} {nodes : List Int}
    (hs : ∀ x ∈ servers, ∀ n ∈ nodes, Samplable x.1 types n)
    (h : All2 (fun (x : List (List (List Rec)) × Graph) as => as.length = nodes.length ∧
        ∀ z ∈ nodes.zip as, ServerOk x.1 types count default nonzero z.1 z.2) servers asL) :
    (∀ as ∈ asL, Answers nodes as) ∧ ∀ as ∈ asL, ∀ x, some x ∈ as → x.2.length = count ∧ 0 ≤ x.1 := by
  constructor
  · intro as has
    obtain ⟨x, hx, hl, hok⟩ := h.mem_right has
    refine ⟨hl, ?_⟩
    intro a ha b hb hab
    have h1 := (hok a ha).none
    have h2 := (hok b hb).none
    rw [hab, ← h2] at h1
    cases ea : a.2 <;> cases eb : b.2 <;> simp [ea, eb] at h1 ⊢
  · intro as has a ha
    obtain ⟨x, hx, hl, hok⟩ := h.mem_right has
    obtain ⟨p, hp⟩ := List.mem_iff_getElem?.1 ha
    obtain ⟨hp1, -⟩ := List.getElem?_eq_some_iff.1 hp
    have hz : (nodes[p]'(by omega), some a) ∈ nodes.zip as := by
      rw [List.mem_iff_getElem?]
      exact ⟨p, by rw [List.getElem?_zip_eq_some]; exact ⟨List.getElem?_eq_getElem (by omega), hp⟩⟩
    obtain ⟨e1, e2, -⟩ := (hok _ hz).some a rfl
    refine ⟨e2, ?_⟩
    rw [e1]
    exact NonNeg.sum (hs x hx _ (List.getElem_mem _)).weights.1

theorem answersAt_mem {servers : List (List (List (List Rec)) × Graph)} {asL : List (List (Option (Int × List Nbr)))}
    {types : List Int} {count : Nat} {default : Nbr} {nonzero : Prop} {nodes : List Int}
    (h : All2 (fun (x : List (List (List Rec)) × Graph) as => as.length = nodes.length ∧
        ∀ z ∈ nodes.zip as, ServerOk x.1 types count default nonzero z.1 z.2) servers asL) {p : Nat} {n : Int}
    (hp : nodes[p]? = some n) {a : Int × List Nbr} (ha : a ∈ answersAt asL p) :
    ∃ x ∈ servers, ServerOk x.1 types count default nonzero n (some a) := by
  obtain ⟨as, has, e⟩ := List.mem_filterMap.1 ha
  obtain ⟨x, hx, hl, hok⟩ := h.mem_right has
  refine ⟨x, hx, ?_⟩
  have : as[p]? = some (some a) := by
    cases hq : as[p]? with
    | none => rw [hq] at e; simp at e
    | some b => rw [hq] at e; simp at e; rw [e]
  exact hok (n, some a) (by
    rw [List.mem_iff_getElem?]
    exact ⟨p, by rw [List.getElem?_zip_eq_some]; exact ⟨hp, this⟩⟩)

/-- A request to any number of servers, each with its own graph and its own draws, merged in any order, all draws different from 0:
every node gets `count` neighbours of positive weight from the servers, or defaults if the total weight of its neighbours is 0;
the row of a node that no server knows is not written.  Missing for the full property: draws of exactly 0 (`C19_zero_refuted`), gaps in
the types (`C15_gap_refuted`). -/
theorem C62_sampled_partial (servers : List (List (List (List Rec)) × Graph)) (hb : ∀ x ∈ servers, ∃ wm m, Built C wm m x.1 x.2)
    (Ds : List (Nat → WDraws)) (hlen : Ds.length = servers.length)
    (hDs : ∀ E ∈ Ds, ∀ i j, 0 < ((E i).real j).1 ∧ ((E i).real j).1 < ((E i).real j).2)
    (D : WDraws) (hD : ∀ i, 0 < (D.real i).1) (types : List Int) (count : Nat) (default : Nbr) (nodes : List Int)
    (outs0 : List (List Nbr)) (h0 : outs0.length = nodes.length) (hc : ∀ o ∈ outs0, o.length = count)
    (hgap : ∀ x ∈ servers, ∀ n ∈ nodes, Spec.NoGap x.1 n types) (hw : ∀ x ∈ servers, ∀ n ∈ nodes, C19_weightsOk x.1 n types)
    (hsum : ∀ n ∈ nodes, C62_weight servers types n ≤ 2 ^ 24)
    (order : List WReply → List (Ev WReply)) (hord : ∀ rs, rs.length = servers.length → Schedule rs (order rs)) :
    ∃ outs, sampleServers ((servers.map (·.2)).zip Ds) D types count default nodes outs0 order = some outs ∧
      outs.length = nodes.length ∧ ∀ (p : Nat) (n : Int) (out : List Nbr), nodes[p]? = some n → outs[p]? = some out →
        out.length = count ∧
        (0 < C62_weight servers types n → ∀ z ∈ out, ∃ x ∈ servers, z ∈ neighbors x.1 n types ∧ 0 < z.weight) ∧
        (C62_weight servers types n = 0 → (∃ x ∈ servers, ∃ r ∈ allRecords x.1, r.src = n) → out = List.replicate count default) ∧
        ((∀ x ∈ servers, ∀ r ∈ allRecords x.1, r.src ≠ n) → outs0[p]? = some out) := by
  have hs : ∀ x ∈ servers, ∀ n ∈ nodes, Samplable x.1 types n := fun x hx n hn => ⟨hgap x hx n hn, hw x hx n hn⟩
  obtain ⟨asL, h1, h2⟩ := mapM_servers servers hb Ds hlen (fun E hE i j => (hDs E hE i j).2) True
    (fun _ E hE i j => (hDs E hE i j).1) types count default nodes hs
  obtain ⟨h3, h4⟩ := answers_ok hs h2
  have hl2 : servers.length = asL.length := h2.length
  obtain ⟨outs, e1, e2, e3⟩ := C26_weighted D count default nodes outs0 h0 hc asL h3 h4 (by
    intro p
    cases hp : nodes[p]? with
    | none =>
      have : answersAt asL p = [] := by
        rw [answersAt, List.filterMap_eq_nil_iff]
        intro as has
        have := (h3 as has).length
        rw [List.getElem?_eq_none (by rw [this]; exact List.getElem?_eq_none_iff.1 hp)]
        rfl
      rw [this]; decide
    | some n =>
      rw [answers_total h2 hp]
      exact hsum n (List.mem_of_getElem? hp)) (order (asL.map (wReply nodes))) (hord _ (by rw [List.length_map, hl2]))
  refine ⟨outs, ?_, e2, ?_⟩
  · have hz : ((servers.map (·.2)).zip Ds).length = asL.length := by simp [hlen, hl2]
    rw [sampleServers, h1, Option.bind_some, hz]
    exact e1
  · intro p n out hp hout
    have hm := e3 p out hout
    have ht := answers_total h2 hp
    refine ⟨hm.length, ?_, ?_, ?_⟩
    · intro hpos z hz
      obtain ⟨a, ha, hap, hza⟩ := hm.weighted hD (by rw [ht]; exact hpos) z hz
      obtain ⟨x, hx, hok⟩ := answersAt_mem h2 hp ha
      have := (hok.some a rfl).2.2.1 hap z hza
      exact ⟨x, hx, this.1, this.2 trivial⟩
    · rintro hzero ⟨x, hx, r, hr, hrn⟩
      apply hm.zero _ (by rw [ht]; exact hzero)
      obtain ⟨as, has, hl, hok⟩ := h2.mem_left hx
      obtain ⟨hpn, -⟩ := List.getElem?_eq_some_iff.1 hp
      have hz : (n, as[p]'(by omega)) ∈ nodes.zip as := by
        rw [List.mem_iff_getElem?]
        exact ⟨p, by rw [List.getElem?_zip_eq_some]; exact ⟨hp, List.getElem?_eq_getElem (by omega)⟩⟩
      have hn := (hok _ hz).none
      dsimp only at hn
      intro hnil
      rw [answersAt, List.filterMap_eq_nil_iff] at hnil
      have := hnil as has
      rw [List.getElem?_eq_getElem (by omega)] at this
      exact hn.1 this r hr hrn
    · intro hun
      have hnil : answersAt asL p = [] := by
        rw [List.eq_nil_iff_forall_not_mem]
        intro a ha
        obtain ⟨x, hx, hok⟩ := answersAt_mem h2 hp ha
        exact absurd (hok.none.2 (hun x hx)) (by simp)
      have := hm.unknown hnil
      obtain ⟨hpn, -⟩ := List.getElem?_eq_some_iff.1 hp
      rw [this, List.getD_eq_getElem?_getD, List.getElem?_eq_getElem (by omega)]
      rfl

/-! Expected numbers from several servers -/

theorem length_listsOf {α : Type} (L : List α) (n : Nat) : (listsOf L n).length = L.length ^ n := by
  induction n with
  | zero => rfl
  | succ n ih =>
    rw [listsOf, List.length_flatMap, Nat.pow_succ, Nat.mul_comm]
    simp only [List.length_map, ih, List.map_const']
    rw [List.sum_replicate_nat]

theorem mean_lists {α : Type} (L : List α) (n : Nat) (f : List α → Rat) : mean L n f = avg (listsOf L n) f := by
  induction n generalizing f with
  | zero => simp [mean, avg, listsOf, Rat.add_zero, Rat.div_def]; grind
  | succ n ih =>
    simp only [mean, listsOf, ih]
    rw [avg_flatMap _ _ (L.length ^ n) (by intro a _; rw [List.length_map, length_listsOf])]
    simp only [avg_map]

theorem mem_listsOf {α : Type} {L : List α} {n : Nat} {ds : List α} (h : ds ∈ listsOf L n) : ds.length = n ∧ ∀ d ∈ ds, d ∈ L := by
  induction n generalizing ds with
  | zero => simp [listsOf] at h; simp [h]
  | succ n ih =>
    obtain ⟨a, ha, h⟩ := List.mem_flatMap.1 h
    obtain ⟨bs, hbs, rfl⟩ := List.mem_map.1 h
    obtain ⟨h1, h2⟩ := ih hbs
    exact ⟨by simp [h1], by simpa [ha] using h2⟩

theorem listsOf_ne {α : Type} {L : List α} (h : L ≠ []) (n : Nat) : listsOf L n ≠ [] := by
  intro h0
  have := length_listsOf L n
  rw [h0] at this
  have := Nat.pow_pos (n := n) (List.length_pos_iff.2 h)
  simp at *
  omega

theorem mean_zip {α β : Type} {L : List α} (hL : L ≠ []) (xs : List β) (f : β → α → Rat) :
    (mean L xs.length fun ds => rsum ((xs.zip ds).map fun z => f z.1 z.2)) = rsum (xs.map fun x => avg L (f x)) := by
  induction xs with
  | nil => rfl
  | cons x xs ih =>
    simp only [List.length_cons, mean, List.zip_cons_cons, List.map_cons, rsum_cons]
    have : ∀ a, (mean L xs.length fun ds => f x a + rsum ((xs.zip ds).map fun z => f z.1 z.2)) =
        f x a + rsum (xs.map fun x => avg L (f x)) := by
      intro a
      rw [mean_add, mean_const hL, ih]
    simp only [this]
    rw [avg_add, avg_const hL]

theorem count_places (y : Nbr) (row : List Nbr) :
    (row.count y : Int) = ((List.range row.length).map fun i => if row[i]? = some y then (1 : Int) else 0).sum := by
  induction row with
  | nil => rfl
  | cons x row ih =>
    rw [List.length_cons, List.range_succ_eq_map, List.map_cons, List.sum_cons, List.map_map, List.count_cons]
    have : ((fun i => if (x :: row)[i]? = some y then (1 : Int) else 0) ∘ Nat.succ) = fun i => if row[i]? = some y then (1 : Int) else 0 := by
      funext i; simp
    rw [this, ← ih]
    by_cases h : x = y
    · simp [h]; omega
    · simp [h]

theorem sum_swap {α β : Type} (L : List α) (K : List β) (f : α → β → Int) :
    (L.map fun a => (K.map fun b => f a b).sum).sum = (K.map fun b => (L.map fun a => f a b).sum).sum := by
  induction L with
  | nil => simp [sum_const]
  | cons x L ih =>
    simp only [List.map_cons, List.sum_cons, ih]
    clear ih
    induction K with
    | nil => rfl
    | cons b K ih => simp only [List.map_cons, List.sum_cons]; omega

theorem sum_const_mul {α : Type} (L : List α) (c : Int) (f : α → Int) : (L.map fun a => c * f a).sum = c * (L.map f).sum := by
  induction L with
  | nil => simp
  | cons x L ih => simp only [List.map_cons, List.sum_cons, ih, Int.mul_add]

/-- Sum over the places of the weight of the answers that offer `y`. -/
theorem sum_sampleWeight (y : Nbr) (count : Nat) (A : List (Int × List Nbr)) (h : ∀ a ∈ A, a.2.length = count) :
    ((List.range count).map fun i => sampleWeight A i y).sum = (A.map fun a => a.1 * (a.2.count y : Int)).sum := by
  have e : ∀ i, sampleWeight A i y = (A.map fun a => a.1 * if a.2[i]? = some y then (1 : Int) else 0).sum := by
    intro i
    induction A with
    | nil => rfl
    | cons a A ih =>
      have := ih fun b hb => h b (by simp [hb])
      simp only [sampleWeight, totalWeight, List.filter_cons, List.map_cons, List.sum_cons] at this ⊢
      by_cases hc : a.2[i]? = some y
      · simp [hc, ← this]
      · simp [hc, ← this]
  simp only [e]
  rw [sum_swap]
  congr 1
  apply List.map_congr_left
  intro a ha
  rw [sum_const_mul, count_places, h a ha]

/-- How often `y` is in the first row of a result; 0 if the request fails. -/
def C62_count (y : Nbr) (result : Option (List (List Nbr))) : Nat := (result.bind (·[0]?)).elim 0 fun row => row.count y

theorem sum_ints_rat {α : Type} (L : List α) (f : α → Int) : ((L.map f).sum : Rat) = rsum (L.map fun a => (f a : Rat)) :=
  (rsum_ints L f).symm

theorem mem_tuples_lt {Q R : Nat} {us : List Nat} (h : us ∈ tuples Q R) : ∀ u ∈ us, u < Q := by
  induction R generalizing us with
  | zero => simp [tuples] at h; subst h; simp
  | succ R ih =>
    obtain ⟨a, ha, h⟩ := List.mem_flatMap.1 h
    obtain ⟨vs, hvs, rfl⟩ := List.mem_map.1 h
    intro u hu
    rcases List.mem_cons.1 hu with rfl | hu
    · exact List.mem_range.1 ha
    · exact ih hvs u hu

/-- The answer of a server given its draws. -/
def ansOf (types : List Int) (count : Nat) (default : Nbr) (n : Int) (g : Graph) (d : WDraws) : Option (Int × List Nbr) :=
  (g.serverWeighted1 (fun _ => d) (sortUnique types) count default n 0).bind (·.1)

theorem ansOf_ok (h : Built C wm m parts g) (types : List Int) (n : Int) (hs : Samplable parts types n) (d : WDraws) (hd : d.Ok)
    (count : Nat) (default : Nbr) :
    g.serverWeighted (fun _ => d) (sortUnique types) count default [n] = some (wReply [n] [ansOf types count default n g d]) ∧
      ServerOk parts types count default False n (ansOf types count default n g d) := by
  obtain ⟨a, s', h1, h2⟩ := server_ok h types n hs (fun _ => d) (fun _ => hd) count default 0
  have ha : ansOf types count default n g d = a := by rw [ansOf, h1]; rfl
  rw [ha]
  constructor
  · rw [Graph.serverWeighted, Graph.serverWeightedLoop, h1]
    cases a <;> simp [Graph.serverWeightedLoop, wReply, knownNodes]
  · exact ⟨h2.none, fun x hx => by
      obtain ⟨e1, e2, e3, e4⟩ := h2.some x hx
      exact ⟨e1, e2, fun hp w hw => ⟨(e3 hp w hw).1, fun hn => hn.elim⟩, e4⟩⟩

/-- A request for a node to any number of servers, each of which has the records of the node in one run or does not know it, merged in
any order: over all draws of the servers and of the client, neighbour `y` is returned on average `count` times its weight, summed over the
servers, divided by the total weight.  Missing for the full property: servers with records of the node at several places
(`C62_partitions_refuted`). -/
theorem C62_servers_partial (servers : List (List (List (List Rec)) × Graph)) (hb : ∀ x ∈ servers, ∃ wm m, Built C wm m x.1 x.2)
    (n : Int) (types : List Int) (count : Nat) (default : Nbr) (out : List Nbr) (ho : out.length = count)
    (hgap : ∀ x ∈ servers, Spec.NoGap x.1 n types) (hw : ∀ x ∈ servers, C19_weightsOk x.1 n types)
    (hone : ∀ x ∈ servers, OneRun x.1 n ∨ ∀ r ∈ allRecords x.1, r.src ≠ n)
    (hpos : 0 < C62_weight servers types n) (hsum : C62_weight servers types n ≤ 2 ^ 24)
    (M Q K R S : Nat) (hM0 : 0 < M) (hQ0 : 0 < Q) (hM : ∀ d : Nat, 0 < d → d ≤ C62_weight servers types n → d ∣ M)
    (hQ : ∀ d : Nat, 0 < d → d ≤ C62_weight servers types n → d ∣ Q)
    (hK : ∀ x ∈ servers, (neighbors x.1 n types).length * count ≤ K) (hR : count ≤ R) (hS : servers.length * count ≤ S)
    (order : List WReply → List (Ev WReply)) (hord : ∀ rs, rs.length = servers.length → Schedule rs (order rs)) (y : Nbr) :
    C62_weight servers types n * ((listsOf (gridCalls M K Q R) servers.length).map fun ds => ((tuples Q S).map fun cs =>
        (C62_count y (sampleServers ((servers.map (·.2)).zip (ds.map fun d _ => d)) (midDraws Q cs) types count default [n] [out] order) : Int)).sum).sum =
      (listsOf (gridCalls M K Q R) servers.length).length * ((tuples Q S).length *
        (count * (servers.map fun x => nbrWeight (neighbors x.1 n types) y).sum)) := by
  have hs : ∀ x ∈ servers, Samplable x.1 types n := fun x hx => ⟨hgap x hx, hw x hx⟩
  have hL := gridCalls_ne (K := K) (R := R) hM0 hQ0
  have hdok : ∀ d ∈ gridCalls M K Q R, d.Ok := by
    intro d hd
    obtain ⟨cs, -, hd⟩ := List.mem_flatMap.1 hd
    obtain ⟨us, hus, rfl⟩ := List.mem_map.1 hd
    exact gridDraws_ok hQ0 _ _ fun u hu => mem_tuples_lt hus u hu
  -- for fixed draws of the servers
  have hfix : ∀ ds ∈ listsOf (gridCalls M K Q R) servers.length, C62_weight servers types n * ((tuples Q S).map fun cs =>
        (C62_count y (sampleServers ((servers.map (·.2)).zip (ds.map fun d _ => d)) (midDraws Q cs) types count default [n] [out] order) : Int)).sum =
      (tuples Q S).length * ((servers.zip ds).map fun z => nsum (neighbors z.1.1 n types) *
        ((((ansOf types count default n z.1.2 z.2).elim 0 fun a => a.2.count y) : Nat) : Int)).sum := by
    intro ds hds
    obtain ⟨hdl, hdm⟩ := mem_listsOf hds
    have hans : ∀ z ∈ servers.zip ds, z.1.2.serverWeighted (fun _ => z.2) (sortUnique types) count default [n] =
        some (wReply [n] [ansOf types count default n z.1.2 z.2]) ∧
        ServerOk z.1.1 types count default False n (ansOf types count default n z.1.2 z.2) := by
      intro z hz
      obtain ⟨h1, h2⟩ := List.of_mem_zip hz
      obtain ⟨wm, m, hb⟩ := hb z.1 h1
      exact ansOf_ok hb types n (hs _ h1) z.2 (hdok _ (hdm _ h2)) count default
    have hmap : ((servers.map (·.2)).zip (ds.map fun d (_ : Nat) => d)) =
        (servers.zip ds).map fun z => (z.1.2, fun _ => z.2) := by
      rw [List.zip_map]; rfl
    have hrep : (((servers.map (·.2)).zip (ds.map fun d (_ : Nat) => d)).mapM fun x : Graph × (Nat → WDraws) =>
        x.1.serverWeighted x.2 (sortUnique types) count default [n]) =
        some (((servers.zip ds).map fun z => [ansOf types count default n z.1.2 z.2]).map (wReply [n])) := by
      rw [hmap, List.mapM_map, List.map_map]
      exact mapM_some_map _ _ _ fun z hz => (hans z hz).1
    have hall : All2 (fun (x : List (List (List Rec)) × Graph) as => as.length = [n].length ∧
        ∀ z ∈ [n].zip as, ServerOk x.1 types count default False z.1 z.2) servers
          ((servers.zip ds).map fun z => [ansOf types count default n z.1.2 z.2]) := by
      clear hmap hrep hds hdm hord hb hs hgap hw hone hpos hsum hM hQ hK hS
      induction servers generalizing ds with
      | nil => exact All2.nil
      | cons x servers ih =>
        cases ds with
        | nil => simp at hdl
        | cons d ds =>
          rw [List.zip_cons_cons, List.map_cons]
          refine All2.cons ⟨rfl, ?_⟩ (ih ds (by simpa using hdl) fun z hz => hans z (by
            rw [List.zip_cons_cons]; exact List.mem_cons_of_mem _ hz))
          intro z hz
          simp only [List.zip_cons_cons, List.zip_nil_right, List.mem_singleton] at hz
          subst hz
          exact (hans (x, d) (by rw [List.zip_cons_cons]; exact List.mem_cons_self)).2
    generalize hasL : ((servers.zip ds).map fun z => [ansOf types count default n z.1.2 z.2]) = asL at *
    obtain ⟨h3, h4⟩ := answers_ok (by intro x hx k hk; simp only [List.mem_singleton] at hk; subst hk; exact hs x hx) hall
    have ht := answers_total hall (p := 0) (n := n) rfl
    have hlA : asL.length = servers.length := hall.length.symm
    have hsum' : ∀ p, totalWeight (answersAt asL p) ≤ 2 ^ 24 := by
      intro p
      cases p with
      | zero => rw [ht]; exact hsum
      | succ p =>
        have : answersAt asL (p + 1) = [] := by
          rw [answersAt, List.filterMap_eq_nil_iff]
          intro as has
          have := (h3 as has).length
          rw [List.getElem?_eq_none (by rw [this]; simp)]
          rfl
        rw [this]; decide
    have hev : Schedule (asL.map (wReply [n])) (order (asL.map (wReply [n]))) := hord _ (by rw [List.length_map, hlA])
    have hrun : ∀ cs, sampleServers ((servers.map (·.2)).zip (ds.map fun d _ => d)) (midDraws Q cs) types count default [n] [out] order =
        remoteWeighted (midDraws Q cs) count default [n] [out] (order (asL.map (wReply [n]))) asL.length := by
      intro cs
      rw [sampleServers, hrep, Option.bind_some]
      congr 1
      rw [List.length_zip, List.length_map, List.length_map, hlA, hdl, Nat.min_self]
    have hplace : ∀ i ∈ List.range count, C62_weight servers types n * (((tuples Q S).map fun cs =>
        if (((remoteWeighted (midDraws Q cs) count default [n] [out] (order (asL.map (wReply [n]))) asL.length).bind
          fun rows => rows[0]?.bind (·[i]?)) = some y) then (1 : Int) else 0).sum) = (tuples Q S).length * sampleWeight (answersAt asL 0) i y := by
      intro i hi
      have := C57_share count default [n] [out] rfl (by simpa using ho) asL h3 h4 hsum' _ hev 0 i (by simp) (List.mem_range.1 hi)
        (by rw [ht]; exact hpos) Q S (by rw [ht]; exact hQ) (by rw [hlA]; simpa using hS) y
      rw [ht, ← sum_indicator] at this
      simp only [decide_eq_true_eq] at this
      exact this
    have hcount : ∀ cs, (C62_count y (remoteWeighted (midDraws Q cs) count default [n] [out] (order (asL.map (wReply [n]))) asL.length) : Int) =
        ((List.range count).map fun i => if (((remoteWeighted (midDraws Q cs) count default [n] [out] (order (asL.map (wReply [n]))) asL.length).bind
          fun rows => rows[0]?.bind (·[i]?)) = some y) then (1 : Int) else 0).sum := by
      intro cs
      obtain ⟨outs, e1, e2, e3⟩ := C26_weighted (midDraws Q cs) count default [n] [out] rfl (by simpa using ho) asL h3 h4 hsum' _ hev
      rw [e1]
      have hl : outs.length = 1 := e2
      obtain ⟨row, rfl⟩ : ∃ row, outs = [row] := List.length_eq_one_iff.1 hl
      have hrl := (e3 0 row rfl).length
      simp only [C62_count, Option.bind_some, List.getElem?_cons_zero, Option.elim_some]
      rw [count_places, hrl]
    simp only [hrun, hcount]
    rw [sum_swap, ← sum_const_mul, List.map_congr_left hplace, sum_const_mul, sum_sampleWeight y count _ (by
      intro a ha
      obtain ⟨as, has, e⟩ := List.mem_filterMap.1 ha
      refine (h4 as has a ?_).1
      cases hq : as[0]? with
      | none => rw [hq] at e; simp at e
      | some b => rw [hq] at e; simp at e; rw [e] at hq; exact List.mem_of_getElem? hq)]
    congr 1
    rw [← hasL, answersAt, List.filterMap_map]
    clear hasL hall h3 h4 ht hlA hsum' hev hrun hplace hcount hrep hmap hds hdm hord hb hs hgap hw hone hpos hsum hM hQ hK hS
    revert hans
    generalize servers.zip ds = zs
    intro hans
    induction zs with
    | nil => rfl
    | cons z zs ih =>
      have hz := (hans z (by simp)).2
      have ih := ih fun z hz => hans z (by simp [hz])
      rw [List.map_cons, List.sum_cons, ← ih, List.filterMap_cons]
      cases ha : ansOf types count default n z.1.2 z.2 with
      | none => simp [ha]
      | some a =>
        have := (hz.some a ha).1
        simp [ha, this]
  -- over the draws of the servers
  rw [← sum_const_mul, List.map_congr_left hfix, sum_const_mul]
  have hmean : (1 : Int) * ((listsOf (gridCalls M K Q R) servers.length).map fun ds => ((servers.zip ds).map fun z => nsum (neighbors z.1.1 n types) *
        ((((ansOf types count default n z.1.2 z.2).elim 0 fun a => a.2.count y) : Nat) : Int)).sum).sum =
      (listsOf (gridCalls M K Q R) servers.length).length * (count * (servers.map fun x => nbrWeight (neighbors x.1 n types) y).sum) := by
    apply sum_of_avg _ (listsOf_ne hL _)
    rw [← mean_lists]
    simp only [sum_ints_rat]
    rw [mean_zip hL servers fun x d => ((nsum (neighbors x.1 n types) *
        ((((ansOf types count default n x.2 d).elim 0 fun a => a.2.count y) : Nat) : Int) : Int) : Rat)]
    have hx : ∀ x ∈ servers, (avg (gridCalls M K Q R) fun d => ((nsum (neighbors x.1 n types) *
        ((((ansOf types count default n x.2 d).elim 0 fun a => a.2.count y) : Nat) : Int) : Int) : Rat)) =
        count * ((nbrWeight (neighbors x.1 n types) y : Int) : Rat) := by
      intro x hx
      have hnn : NonNeg (neighbors x.1 n types) := (hw x hx).1
      by_cases hz : nsum (neighbors x.1 n types) = 0
      · simp only [hz, nbrWeight_zero hnn hz, Int.zero_mul]
        rw [avg_const hL]; simp
      · have hp : 0 < nsum (neighbors x.1 n types) := by have := hnn.sum; omega
        have hle : nsum (neighbors x.1 n types) ≤ C62_weight servers types n := by
          obtain ⟨A, B, hAB⟩ := List.append_of_mem hx
          have hnonneg : ∀ (T : List (List (List (List Rec)) × Graph)), (∀ t ∈ T, t ∈ servers) → 0 ≤ C62_weight T types n := by
            intro T hT
            induction T with
            | nil => simp [C62_weight]
            | cons t T ih =>
              have h1 := ih fun t ht => hT t (by simp [ht])
              have h2 : NonNeg (neighbors t.1 n types) := (hw t (hT t (by simp))).1
              have := h2.sum
              simp only [C62_weight, List.map_cons, List.sum_cons, nsum] at *
              omega
          have hA := hnonneg A (by intro t ht; rw [hAB]; simp [ht])
          have hB := hnonneg B (by intro t ht; rw [hAB]; simp [ht])
          rw [hAB]
          simp only [C62_weight, List.map_append, List.map_cons, List.sum_append, List.sum_cons, nsum] at *
          omega
        rcases hone x hx with h1 | h1
        · obtain ⟨wm, m, hb⟩ := hb x hx
          have := (server_mean hb types n (hs x hx) h1 hp hM0 hQ0 (fun d hd hd2 => hM d hd (by omega)) (fun d hd hd2 => hQ d hd (by omega))
            count default K R (hK x hx) hR y).2 0
          have e : (fun d => ((nsum (neighbors x.1 n types) *
              ((((ansOf types count default n x.2 d).elim 0 fun a => a.2.count y) : Nat) : Int) : Int) : Rat)) = fun d =>
              (nsum (neighbors x.1 n types) : Rat) * occ y ((x.2.serverWeighted1 (fun _ => d) (sortUnique types) count default n 0).bind
                fun z => z.1.map (·.2)) := by
            funext d
            rw [Rat.intCast_mul]
            congr 1
            simp only [ansOf, occ]
            cases x.2.serverWeighted1 (fun _ => d) (sortUnique types) count default n 0 with
            | none => rfl
            | some z => obtain ⟨a, s⟩ := z; cases a <;> rfl
          rw [e, avg_mul, this]
          have := rat_int_ne hz
          grind
        · rw [neighbors_unknown types h1] at hz
          exact absurd rfl hz
    rw [List.map_congr_left hx, rsum_map_mul, ← sum_ints_rat, Rat.intCast_mul]
    exact Rat.one_mul _
  rw [Int.one_mul] at hmean
  rw [hmean]
  simp only [Int.mul_left_comm]

/-! Examples. -/

/-- Node 1 with neighbours of two types; node 5 elsewhere. -/
def C62_example : List (List (List Rec)) :=
  [[[⟨5, 1, 0, 1, none, none, []⟩, ⟨1, -1, 0, 1, none, none, []⟩, ⟨1, 2, 0, 1, none, none, []⟩], [⟨1, 3, 1, 1, none, none, []⟩],
    [⟨6, -1, 0, 1, none, none, []⟩]], [[⟨5, 1, 0, 1, none, none, []⟩]]]

/-- Another server. -/
def C62_second : List (List (List Rec)) := [[[⟨1, 2, 0, 2, none, none, []⟩], [⟨5, -1, 0, 1, none, none, []⟩]]]

theorem C62_example_run : OneRun C62_example 1 :=
  ⟨[], [[[⟨5, 1, 0, 1, none, none, []⟩]]], _, [⟨5, 1, 0, 1, none, none, []⟩], ⟨1, -1, 0, 1, none, none, []⟩,
    [⟨1, 2, 0, 1, none, none, []⟩, ⟨1, 3, 1, 1, none, none, []⟩], [⟨6, -1, 0, 1, none, none, []⟩], rfl, rfl, rfl, by decide, by decide⟩

theorem C62_second_run : OneRun C62_second 1 :=
  ⟨[], [], _, [], ⟨1, 2, 0, 2, none, none, []⟩, [], [⟨5, -1, 0, 1, none, none, []⟩], rfl, rfl, rfl, by decide, by decide⟩

/-- Non-vacuity: three samples for node 1, one and a half of them neighbour 2 on average. -/
example : ∃ g, Built intCodec none ⟨0, 0, -1⟩ C62_example g ∧ ∀ out : List Nbr, out.length = 3 →
    2 * ((gridCalls 2 6 2 3).map fun D => (occurrences ⟨2, 0, 1⟩ (g.weightedSample1 (fun _ => D) [0, 1] 3 ⟨-1, -1, 0⟩ 1 out 0) : Int)).sum =
      (gridCalls 2 6 2 3).length * 3 := by
  obtain ⟨g, -, hb⟩ := built_of_check (wm := none) (m := ⟨0,0,-1⟩) (parts := C62_example) (by decide +kernel)
  refine ⟨g, hb, fun out ho => ?_⟩
  have hs : ((Spec.neighbors C62_example 1 [0, 1]).map (·.weight)).sum = 2 := by decide +kernel
  have hd : ∀ d : Nat, 0 < d → (d : Int) ≤ ((Spec.neighbors C62_example 1 [0, 1]).map (·.weight)).sum → d ∣ 2 := by
    intro d h1 h2
    rw [hs] at h2
    have : d = 1 ∨ d = 2 := by omega
    rcases this with rfl | rfl <;> decide
  have := C62_expected_partial hb 1 [0, 1] 3 ⟨-1, -1, 0⟩ out ho (by unfold Spec.NoGap; decide +kernel) (by unfold C19_weightsOk; decide +kernel)
    C62_example_run (by decide +kernel) 2 2 6 3 (by decide) (by decide) hd hd (by decide +kernel) (by decide) ⟨2, 0, 1⟩
  rw [hs, show nbrWeight (neighbors C62_example 1 [0, 1]) ⟨2, 0, 1⟩ = 1 by decide +kernel] at this
  exact this

/-- Non-vacuity: of two samples, one is neighbour 2 and one neighbour 3 for half of the draws. -/
example : ∃ g, Built intCodec none ⟨0, 0, -1⟩ C62_example g ∧ ∀ out : List Nbr, out.length = 2 →
    4 * (((gridCalls 2 4 2 2).filter fun D => (g.weightedSample1 (fun _ => D) [0, 1] 2 ⟨-1, -1, 0⟩ 1 out 0).any
      (·.1.isPerm [⟨2, 0, 1⟩, ⟨3, 1, 1⟩])).length : Int) = (gridCalls 2 4 2 2).length * 2 := by
  obtain ⟨g, -, hb⟩ := built_of_check (wm := none) (m := ⟨0,0,-1⟩) (parts := C62_example) (by decide +kernel)
  refine ⟨g, hb, fun out ho => ?_⟩
  have hs : ((Spec.neighbors C62_example 1 [0, 1]).map (·.weight)).sum = 2 := by decide +kernel
  have hd : ∀ d : Nat, 0 < d → (d : Int) ≤ ((Spec.neighbors C62_example 1 [0, 1]).map (·.weight)).sum → d ∣ 2 := by
    intro d h1 h2
    rw [hs] at h2
    have : d = 1 ∨ d = 2 := by omega
    rcases this with rfl | rfl <;> decide
  have := C62_joint_partial hb 1 [0, 1] 2 ⟨-1, -1, 0⟩ out ho (by unfold Spec.NoGap; decide +kernel) (by unfold C19_weightsOk; decide +kernel)
    C62_example_run (by decide +kernel) 2 2 4 2 (by decide) (by decide) hd hd (by decide +kernel) (by decide) [⟨2, 0, 1⟩, ⟨3, 1, 1⟩]
  rw [hs, show (((listsOf (Spec.neighbors C62_example 1 [0, 1]) 2).filter (·.isPerm [⟨2, 0, 1⟩, ⟨3, 1, 1⟩])).map weightProduct).sum = 2 by
    decide +kernel] at this
  exact this

/-- Non-vacuity: nodes 1 and 6 at two servers. -/
example : ∃ g k, Built intCodec none ⟨0, 0, -1⟩ C62_example g ∧ Built intCodec none ⟨0, 0, -1⟩ C62_second k ∧
    ∀ order : List WReply → List (Ev WReply), (∀ rs, rs.length = 2 → Schedule rs (order rs)) →
    ∃ a, sampleServers [(g, fun _ => ⟨fun i => i, fun i => (i % 3 + 1, 4)⟩), (k, fun _ => ⟨fun i => i, fun _ => (1, 2)⟩)]
        ⟨fun i => i, fun i => (i % 5 + 1, 6)⟩ [0, 1] 2 ⟨-1, -1, 0⟩ [1, 6] (List.replicate 2 (List.replicate 2 ⟨7, 7, 7⟩)) order =
          some [a, [⟨-1, -1, 0⟩, ⟨-1, -1, 0⟩]] ∧ a.length = 2 ∧
      ∀ z ∈ a, z ∈ neighbors C62_example 1 [0, 1] ∨ z ∈ neighbors C62_second 1 [0, 1] := by
  obtain ⟨g, -, hb⟩ := built_of_check (wm := none) (m := ⟨0,0,-1⟩) (parts := C62_example) (by decide +kernel)
  obtain ⟨k, -, hk⟩ := built_of_check (wm := none) (m := ⟨0,0,-1⟩) (parts := C62_second) (by decide +kernel)
  refine ⟨g, k, hb, hk, fun order hord => ?_⟩
  have hs : ∀ n, C62_weight [(C62_example, g), (C62_second, k)] [0, 1] n =
      ((neighbors C62_example n [0, 1]).map (·.weight)).sum + (((neighbors C62_second n [0, 1]).map (·.weight)).sum + 0) := fun _ => rfl
  have h1 : C62_weight [(C62_example, g), (C62_second, k)] [0, 1] 1 = 4 := by rw [hs]; decide +kernel
  have h6 : C62_weight [(C62_example, g), (C62_second, k)] [0, 1] 6 = 0 := by rw [hs]; decide +kernel
  obtain ⟨outs, e1, e2, e3⟩ := C62_sampled_partial [(C62_example, g), (C62_second, k)] (C := intCodec) (by
      intro x hx
      simp only [List.mem_cons, List.not_mem_nil, or_false] at hx
      rcases hx with rfl | rfl
      · exact ⟨_, _, hb⟩
      · exact ⟨_, _, hk⟩) [fun _ => ⟨fun i => i, fun i => (i % 3 + 1, 4)⟩, fun _ => ⟨fun i => i, fun _ => (1, 2)⟩] rfl (by
      intro E hE
      simp only [List.mem_cons, List.not_mem_nil, or_false] at hE
      rcases hE with rfl | rfl
      · intro i j; dsimp only; omega
      · intro i j; dsimp only; omega) ⟨fun i => i, fun i => (i % 5 + 1, 6)⟩ (by intro i; dsimp only; omega) [0, 1] 2 ⟨-1, -1, 0⟩ [1, 6]
    (List.replicate 2 (List.replicate 2 ⟨7, 7, 7⟩)) rfl (by simp) (by
      intro x hx n hn
      simp only [List.mem_cons, List.not_mem_nil, or_false] at hx hn
      rcases hx with rfl | rfl <;> rcases hn with rfl | rfl <;> (unfold Spec.NoGap; dsimp only; decide +kernel)) (by
      intro x hx n hn
      simp only [List.mem_cons, List.not_mem_nil, or_false] at hx hn
      rcases hx with rfl | rfl <;> rcases hn with rfl | rfl <;> (unfold C19_weightsOk; dsimp only; decide +kernel)) (by
      intro n hn
      simp only [List.mem_cons, List.not_mem_nil, or_false] at hn
      rcases hn with rfl | rfl
      · rw [h1]; decide
      · rw [h6]; decide) order hord
  match outs, e2 with
  | [a, b], _ =>
    obtain ⟨f1, f2, -, -⟩ := e3 0 1 a rfl rfl
    obtain ⟨-, -, f3, -⟩ := e3 1 6 b rfl rfl
    have hb' := f3 h6 ⟨_, List.mem_cons_self, ⟨6, -1, 0, 1, none, none, []⟩, by dsimp only; decide +kernel, rfl⟩
    subst hb'
    refine ⟨a, e1, f1, fun z hz => ?_⟩
    obtain ⟨x, hx, h3, -⟩ := f2 (by rw [h1]; decide) z hz
    simp only [List.mem_cons, List.not_mem_nil, or_false] at hx
    rcases hx with rfl | rfl
    · exact Or.inl h3
    · exact Or.inr h3

/-- Non-vacuity: two servers; neighbour 2 with weight 2 comes from the second one. -/
example : ∃ g k, Built intCodec none ⟨0, 0, -1⟩ C62_example g ∧ Built intCodec none ⟨0, 0, -1⟩ C62_second k ∧
    ∀ (out : List Nbr) (order : List WReply → List (Ev WReply)), out.length = 3 → (∀ rs, rs.length = 2 → Schedule rs (order rs)) →
    4 * ((listsOf (gridCalls 12 6 12 3) 2).map fun ds => ((tuples 12 6).map fun cs =>
        (C62_count ⟨2, 0, 2⟩ (sampleServers ([g, k].zip (ds.map fun d _ => d)) (midDraws 12 cs) [0, 1] 3 ⟨-1, -1, 0⟩ [1] [out] order) : Int)).sum).sum =
      (listsOf (gridCalls 12 6 12 3) 2).length * ((tuples 12 6).length * (3 * 2)) := by
  obtain ⟨g, -, hb⟩ := built_of_check (wm := none) (m := ⟨0,0,-1⟩) (parts := C62_example) (by decide +kernel)
  obtain ⟨k, -, hk⟩ := built_of_check (wm := none) (m := ⟨0,0,-1⟩) (parts := C62_second) (by decide +kernel)
  refine ⟨g, k, hb, hk, fun out order ho hord => ?_⟩
  have hs : C62_weight [(C62_example, g), (C62_second, k)] [0, 1] 1 = 4 := by
    show ((neighbors C62_example 1 [0, 1]).map (·.weight)).sum + (((neighbors C62_second 1 [0, 1]).map (·.weight)).sum + 0) = 4
    decide +kernel
  have hd : ∀ d : Nat, 0 < d → (d : Int) ≤ C62_weight [(C62_example, g), (C62_second, k)] [0, 1] 1 → d ∣ 12 := by
    intro d h1 h2
    rw [hs] at h2
    have : d = 1 ∨ d = 2 ∨ d = 3 ∨ d = 4 := by omega
    rcases this with rfl | rfl | rfl | rfl <;> decide
  have := C62_servers_partial [(C62_example, g), (C62_second, k)] (C := intCodec) (by
      intro x hx
      simp only [List.mem_cons, List.not_mem_nil, or_false] at hx
      rcases hx with rfl | rfl
      · exact ⟨_, _, hb⟩
      · exact ⟨_, _, hk⟩) 1 [0, 1] 3 ⟨-1, -1, 0⟩ out ho (by
      intro x hx
      simp only [List.mem_cons, List.not_mem_nil, or_false] at hx
      rcases hx with rfl | rfl <;> (unfold Spec.NoGap; dsimp only; decide +kernel)) (by
      intro x hx
      simp only [List.mem_cons, List.not_mem_nil, or_false] at hx
      rcases hx with rfl | rfl <;> (unfold C19_weightsOk; dsimp only; decide +kernel)) (by
      intro x hx
      simp only [List.mem_cons, List.not_mem_nil, or_false] at hx
      rcases hx with rfl | rfl
      · exact Or.inl C62_example_run
      · exact Or.inl C62_second_run) (by rw [hs]; decide) (by rw [hs]; decide) 12 12 6 3 6 (by decide) (by decide) hd hd (by
      intro x hx
      simp only [List.mem_cons, List.not_mem_nil, or_false] at hx
      rcases hx with rfl | rfl <;> (dsimp only; decide +kernel)) (by decide) (by simp) order hord ⟨2, 0, 2⟩
  rw [hs] at this
  have e : (List.map (fun x => nbrWeight (neighbors x.1 1 [0, 1]) ⟨2, 0, 2⟩) [(C62_example, g), (C62_second, k)]).sum = 2 := by
    show nbrWeight (neighbors C62_example 1 [0, 1]) ⟨2, 0, 2⟩ + (nbrWeight (neighbors C62_second 1 [0, 1]) ⟨2, 0, 2⟩ + 0) = 2
    decide +kernel
  rw [e] at this
  exact this

/-- Node 1 has one neighbour in each of three partitions. -/
def C62_split : List (List (List Rec)) :=
  [[[⟨1, 2, 0, 1, none, none, []⟩]], [[⟨1, 3, 0, 1, none, none, []⟩]], [[⟨1, 4, 0, 2, none, none, []⟩]]]

deriving instance DecidableEq for WGroup

/-- What is read for node 1. -/
def C62_groups : List (List WGroup) := [[⟨[1], [⟨2, 0, 1⟩]⟩], [⟨[1], [⟨3, 0, 1⟩]⟩], [⟨[2], [⟨4, 0, 2⟩]⟩]]

/-- Two samples for a node with neighbours in three partitions, of weights 1, 1 and 2.  A sample that is not taken does not advance the
place written to, so that the third partition replaces the first place first, where the second partition wrote before: neighbour 2 is returned
5/8 times on average instead of 1/2.  (Only whether numbers are above 1/2 matters, so the numbers 1/4 and 3/4 are fine enough.) -/
theorem C62_partitions_refuted : ∃ (parts : List (List (List Rec))) (g : Graph) (n : Int) (types : List Int) (count : Nat) (default y : Nbr),
    Built intCodec none ⟨0, 0, -1⟩ parts g ∧ C19_weightsOk parts n types ∧ y ∈ Spec.neighbors parts n types ∧
    ((Spec.neighbors parts n types).map (·.weight)).sum *
        ((listsOf (gridCalls 1 0 2 3) 3).map fun ds =>
          (occurrences y (g.weightedSample1 (drawsOf ds) types count default n (List.replicate count default) 0) : Int)).sum ≠
      (listsOf (gridCalls 1 0 2 3) 3).length * (count * nbrWeight (Spec.neighbors parts n types) y) := by
  obtain ⟨g, hg, hb⟩ := built_of_check (wm := none) (m := ⟨0,0,-1⟩) (parts := C62_split) (by decide +kernel)
  refine ⟨C62_split, g, 1, [0], 2, ⟨-1, -1, 0⟩, ⟨2, 0, 1⟩, hb, by unfold C19_weightsOk; decide +kernel, by decide +kernel, ?_⟩
  have h1 : (graphOf intCodec none ⟨0, 0, -1⟩ C62_split).bind (fun g => (g.nodeMap 1).bind fun _ =>
      (g.entries 1).bind fun es => es.mapM (readGroups [0])) = some C62_groups := by decide +kernel
  rw [hg, Option.bind_some] at h1
  obtain ⟨off, h2, h3⟩ := Option.bind_eq_some_iff.1 h1
  obtain ⟨es, h4, h5⟩ := Option.bind_eq_some_iff.1 h3
  have hr : ∀ ds, g.weightedSample1 (drawsOf ds) [0] 2 ⟨-1, -1, 0⟩ 1 (List.replicate 2 ⟨-1, -1, 0⟩) 0 =
      absEntries (drawsOf ds) 2 ⟨-1, -1, 0⟩ C62_groups (List.replicate 2 ⟨-1, -1, 0⟩) 0 0 := by
    intro ds
    simp only [Graph.weightedSample1, h2, h4, Option.bind_some]
    exact weightedEntries_abs _ _ _ _ _ _ h5 _ _ _
  simp only [hr]
  decide +kernel

/-- A server with two neighbours of node 1. -/
def C62_left : List (List (List Rec)) := [[[⟨1, 2, 0, 1, none, none, []⟩, ⟨1, 3, 1, 1, none, none, []⟩]]]

/-- Another one. -/
def C62_right : List (List (List Rec)) := [[[⟨1, 4, 0, 1, none, none, []⟩, ⟨1, 5, 1, 1, none, none, []⟩]]]

/-- The replies are stored and merged in the order of the servers. -/
def C62_order (rs : List WReply) : List (Ev WReply) := rs.zipIdx.flatMap fun x => [.recv x.2 x.1, .run x.2]

/-- Samples from several servers are not independent of each other.  Every server returns its samples ordered by type, and the client keeps or
replaces them place by place: of two samples from two servers with neighbours of types 0 and 1 each, all of weight 1, both are neighbours of type
0, one from either server, with probability 3/32 instead of 1/8. -/
theorem C62_joint_refuted : ∃ (servers : List (List (List (List Rec)) × Graph)) (n : Int) (types : List Int) (count : Nat) (default : Nbr)
    (ys : List Nbr), (∀ x ∈ servers, ∃ wm m, Built intCodec wm m x.1 x.2) ∧ (∀ x ∈ servers, C19_weightsOk x.1 n types ∧ OneRun x.1 n) ∧
    (∀ rs, rs.length = servers.length → Schedule rs (C62_order rs)) ∧
    C62_weight servers types n ^ count *
        ((listsOf (gridCalls 2 2 2 0) servers.length).flatMap fun ds => (tuples 2 2).filter fun cs =>
          (sampleServers ((servers.map (·.2)).zip (ds.map fun d _ => d)) (midDraws 2 cs) types count default [n]
            [List.replicate count default] C62_order).any fun rows => rows.any (·.isPerm ys)).length ≠
      ((listsOf (gridCalls 2 2 2 0) servers.length).length * (tuples 2 2).length : Int) *
        (((listsOf (servers.flatMap fun x => neighbors x.1 n types) count).filter (·.isPerm ys)).map weightProduct).sum := by
  obtain ⟨g, hg, hb⟩ := built_of_check (wm := none) (m := ⟨0,0,-1⟩) (parts := C62_left) (by decide +kernel)
  obtain ⟨k, hk, hb'⟩ := built_of_check (wm := none) (m := ⟨0,0,-1⟩) (parts := C62_right) (by decide +kernel)
  refine ⟨[(C62_left, g), (C62_right, k)], 1, [0, 1], 2, ⟨-1, -1, 0⟩, [⟨2, 0, 1⟩, ⟨4, 0, 1⟩], ?_, ?_, ?_, ?_⟩
  · intro x hx
    simp only [List.mem_cons, List.not_mem_nil, or_false] at hx
    rcases hx with rfl | rfl
    · exact ⟨_, _, hb⟩
    · exact ⟨_, _, hb'⟩
  · intro x hx
    simp only [List.mem_cons, List.not_mem_nil, or_false] at hx
    rcases hx with rfl | rfl
    · exact ⟨by unfold C19_weightsOk; dsimp only; decide +kernel, [], [], _, [], ⟨1, 2, 0, 1, none, none, []⟩, [⟨1, 3, 1, 1, none, none, []⟩],
        [], rfl, rfl, rfl, by decide, by decide⟩
    · exact ⟨by unfold C19_weightsOk; dsimp only; decide +kernel, [], [], _, [], ⟨1, 4, 0, 1, none, none, []⟩, [⟨1, 5, 1, 1, none, none, []⟩],
        [], rfl, rfl, rfl, by decide, by decide⟩
  · intro rs _
    refine ⟨List.Perm.refl _, fun x hx => ?_⟩
    obtain ⟨a, b, hab⟩ := List.append_of_mem hx
    rw [C62_order, hab, List.flatMap_append, List.flatMap_cons]
    exact List.sublist_append_of_sublist_right (List.sublist_append_left ..)
  · have h1 : (graphOf intCodec none ⟨0, 0, -1⟩ C62_left).bind (fun g => (graphOf intCodec none ⟨0, 0, -1⟩ C62_right).bind fun k =>
        some ((listsOf (gridCalls 2 2 2 0) 2).flatMap fun ds => (tuples 2 2).filter fun cs =>
          (sampleServers ([g, k].zip (ds.map fun d _ => d)) (midDraws 2 cs) [0, 1] 2 ⟨-1, -1, 0⟩ [1]
            [List.replicate 2 ⟨-1, -1, 0⟩] C62_order).any fun rows => rows.any (·.isPerm [⟨2, 0, 1⟩, ⟨4, 0, 1⟩])).length) = some 6 := by
      decide +kernel
    rw [hg, Option.bind_some, hk, Option.bind_some] at h1
    have h1 := Option.some.inj h1
    have h2 : C62_weight [(C62_left, g), (C62_right, k)] [0, 1] 1 = 4 := by
      show ((neighbors C62_left 1 [0, 1]).map (·.weight)).sum + (((neighbors C62_right 1 [0, 1]).map (·.weight)).sum + 0) = 4
      decide +kernel
    have h3 : (((listsOf ([(C62_left, g), (C62_right, k)].flatMap fun x => neighbors x.1 1 [0, 1]) 2).filter
        (·.isPerm [⟨2, 0, 1⟩, ⟨4, 0, 1⟩])).map weightProduct).sum = 2 := by
      show (((listsOf (neighbors C62_left 1 [0, 1] ++ (neighbors C62_right 1 [0, 1] ++ [])) 2).filter
        (·.isPerm [⟨2, 0, 1⟩, ⟨4, 0, 1⟩])).map weightProduct).sum = 2
      decide +kernel
    rw [h2, h3]
    show (4 : Int) ^ 2 * (((listsOf (gridCalls 2 2 2 0) 2).flatMap fun ds => (tuples 2 2).filter fun cs =>
          (sampleServers ([g, k].zip (ds.map fun d _ => d)) (midDraws 2 cs) [0, 1] 2 ⟨-1, -1, 0⟩ [1]
            [List.replicate 2 ⟨-1, -1, 0⟩] C62_order).any fun rows => rows.any (·.isPerm [⟨2, 0, 1⟩, ⟨4, 0, 1⟩])).length : Int) ≠ _
    rw [h1]
    show (4 : Int) ^ 2 * ((6 : Nat) : Int) ≠ ((listsOf (gridCalls 2 2 2 0) 2).length * (tuples 2 2).length : Int) * 2
    decide +kernel

end DeepGNN
