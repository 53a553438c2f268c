import Verif.Props.C62
import Verif.Props.C91
import Verif.Model.ServerTimed

/-
C91 and C69 Weighted samples at timestamps merged from several servers, with and without creation times.
-/

namespace DeepGNN

open Spec

/-- What a server answers about one entry of a request. -/
structure RowOk {α : Type} (known : Prop) (total : Int) (P : α → Prop) (count : Nat) (default : α) (a : Option (Int × List α)) :
    Prop where
  none : a = none ↔ ¬known
  some : ∀ x, a = some x → x.1 = total ∧ x.2.length = count ∧ (0 < x.1 → ∀ z ∈ x.2, P z) ∧ (x.1 = 0 → x.2 = List.replicate count default)

theorem serverRows_ok {α β : Type} (one : β → Nat → Option (Option (Int × List α) × Nat)) (id : β → Int)
    (Q : β → Option (Int × List α) → Prop) (reqs : List β)
    (h : ∀ q ∈ reqs, ∀ s, ∃ a s', one q s = some (a, s') ∧ Q q a) (s : Nat) (r : WReply α) :
    ∃ as, serverRows one id reqs s r =
        some { nodes := r.nodes ++ (wReply (reqs.map id) as).nodes, nbrs := r.nbrs ++ (wReply (reqs.map id) as).nbrs } ∧
      All2 Q reqs as := by
  induction reqs generalizing s r with
  | nil => exact ⟨[], by simp [serverRows, wReply, knownNodes], .nil⟩
  | cons q reqs ih =>
    obtain ⟨a, s', h1, h2⟩ := h q (by simp) s
    obtain ⟨as, h3, h4⟩ := ih (fun k hk => h k (by simp [hk])) s' (a.elim r fun a =>
        { nodes := r.nodes ++ [(id q, a.1)], nbrs := r.nbrs ++ a.2 })
    refine ⟨a :: as, ?_, .cons h2 h4⟩
    rw [serverRows, h1, Option.bind_some]
    dsimp only
    rw [h3]
    cases a with
    | none => simp [wReply, knownNodes_cons]
    | some a => simp [wReply, knownNodes_cons]

theorem All2.at {α β : Type} {R : α → β → Prop} {l : List α} {k : List β} (h : All2 R l k) {p : Nat} {a : α} (hp : l[p]? = some a) :
    ∃ b, k[p]? = some b ∧ R a b := by
  induction h generalizing p with
  | nil => simp at hp
  | cons hr _ ih =>
    cases p with
    | zero => obtain rfl : _ = a := by simpa using hp
              exact ⟨_, rfl, hr⟩
    | succ p => exact ih (by simpa using hp)

/-- Answers of servers, merged in any order. -/
theorem rows_merged {α β σ : Type} (servers : List σ) (reqs : List β) (id : β → Int) (known : σ → Int → Prop) (total : σ → β → Int)
    (P : σ → β → α → Prop) (count : Nat) (default : α) (asL : List (List (Option (Int × List α))))
    (h : All2 (fun x as => All2 (fun q a => RowOk (known x (id q)) (total x q) (P x q) count default a) reqs as) servers asL)
    (hunk : ∀ x ∈ servers, ∀ q ∈ reqs, ¬known x (id q) → total x q = 0) (hnn : ∀ x ∈ servers, ∀ q ∈ reqs, 0 ≤ total x q)
    (hsum : ∀ q ∈ reqs, (servers.map fun x => total x q).sum ≤ 2 ^ 24)
    (D : WDraws) (hD : ∀ i, 0 < (D.real i).1) (outs0 : List (List α)) (h0 : outs0.length = reqs.length) (hc : ∀ o ∈ outs0, o.length = count)
    (evs : List (Ev (WReply α))) (hev : Schedule (asL.map (wReply (reqs.map id))) evs) :
    ∃ outs, remoteWeighted D count default (reqs.map id) outs0 evs asL.length = some outs ∧ outs.length = reqs.length ∧
      ∀ (p : Nat) (q : β) (out : List α), reqs[p]? = some q → outs[p]? = some out → out.length = count ∧
        (0 < (servers.map fun x => total x q).sum → ∀ z ∈ out, ∃ x ∈ servers, P x q z) ∧
        ((servers.map fun x => total x q).sum = 0 → (∃ x ∈ servers, known x (id q)) → out = List.replicate count default) ∧
        ((∀ x ∈ servers, ¬known x (id q)) → outs0[p]? = some out) := by
  have htot : ∀ (p : Nat) (q : β), reqs[p]? = some q → totalWeight (answersAt asL p) = (servers.map fun x => total x q).sum := by
    intro p q hp
    have hm := List.mem_of_getElem? hp
    clear hsum hev
    induction h with
    | nil => rfl
    | cons hr _ ih =>
      rename_i x as servers asL _
      have ih := ih (fun x hx => hunk x (by simp [hx])) (fun x hx => hnn x (by simp [hx]))
      obtain ⟨a, ha, hok⟩ := hr.at hp
      have hcons : answersAt (as :: asL) p = a.toList ++ answersAt asL p := by
        simp only [answersAt, List.filterMap_cons, ha]
        cases a <;> rfl
      rw [hcons, List.map_cons, List.sum_cons, ← ih]
      cases a with
      | none =>
        rw [hunk x (by simp) q hm (hok.none.1 rfl), Int.zero_add]
        rfl
      | some a =>
        rw [← (hok.some a rfl).1]
        simp only [Option.toList, List.singleton_append, totalWeight, List.map_cons, List.sum_cons]
  have hat : ∀ (p : Nat) (q : β) a, reqs[p]? = some q → a ∈ answersAt asL p →
      ∃ x ∈ servers, RowOk (known x (id q)) (total x q) (P x q) count default (some a) := by
    intro p q a hp ha
    obtain ⟨as, has, e⟩ := List.mem_filterMap.1 ha
    obtain ⟨x, hx, hok⟩ := h.mem_right has
    obtain ⟨b, hb, hr⟩ := hok.at hp
    rw [hb] at e
    obtain rfl : b = some a := by simpa using e
    exact ⟨x, hx, hr⟩
  have hans : ∀ as ∈ asL, Answers (reqs.map id) as := by
    intro as has
    obtain ⟨x, hx, hok⟩ := h.mem_right has
    refine ⟨by simp [hok.length], ?_⟩
    have key : ∀ z ∈ (reqs.map id).zip as, z.2 = none ↔ ¬known x z.1 := by
      clear hev htot hat h hsum hnn hunk h0 has hx
      intro z hz
      induction hok with
      | nil => simp at hz
      | cons hr _ ih =>
        rw [List.map_cons, List.zip_cons_cons] at hz
        rcases List.mem_cons.1 hz with rfl | hz
        · exact hr.none
        · exact ih hz
    intro a ha b hb hab
    have h1 := key a ha
    have h2 := key b hb
    rw [hab, ← h2] at h1
    cases ea : a.2 <;> cases eb : b.2 <;> simp [ea, eb] at h1 ⊢
  have hrow : ∀ as ∈ asL, ∀ x, some x ∈ as → x.2.length = count ∧ 0 ≤ x.1 := by
    intro as has a ha
    obtain ⟨x, hx, hok⟩ := h.mem_right has
    obtain ⟨q, hq, hr⟩ := hok.mem_right ha
    obtain ⟨e1, e2, -⟩ := hr.some a rfl
    exact ⟨e2, by rw [e1]; exact hnn x hx q hq⟩
  obtain ⟨outs, e1, e2, e3⟩ := C26_weighted D count default (reqs.map id) outs0 (by simpa using h0) hc asL hans hrow (by
    intro p
    cases hp : reqs[p]? with
    | none =>
      have : answersAt asL p = [] := by
        rw [answersAt, List.filterMap_eq_nil_iff]
        intro as has
        have := (hans as has).length
        rw [List.getElem?_eq_none (by rw [this, List.length_map]; exact List.getElem?_eq_none_iff.1 hp)]
        rfl
      rw [this]; exact (by decide : (0 : Int) ≤ 2 ^ 24)
    | some q =>
      rw [htot p q hp]
      exact hsum q (List.mem_of_getElem? hp)) evs hev
  refine ⟨outs, e1, by simpa using e2, ?_⟩
  intro p q out hp hout
  have hm := e3 p out hout
  have ht := htot p q hp
  have hq := List.mem_of_getElem? hp
  refine ⟨hm.length, ?_, ?_, ?_⟩
  · intro hpos z hz
    obtain ⟨a, ha, hap, hza⟩ := hm.weighted hD (by rw [ht]; exact hpos) z hz
    obtain ⟨x, hx, hok⟩ := hat p q a hp ha
    exact ⟨x, hx, (hok.some a rfl).2.2.1 hap z hza⟩
  · rintro hzero ⟨x, hx, hk⟩
    apply hm.zero _ (by rw [ht]; exact hzero)
    obtain ⟨as, has, hok⟩ := h.mem_left hx
    obtain ⟨b, hb, hr⟩ := hok.at hp
    intro hnil
    rw [answersAt, List.filterMap_eq_nil_iff] at hnil
    have := hnil as has
    rw [hb] at this
    exact hr.none.1 this hk
  · intro hun
    have hnil : answersAt asL p = [] := by
      rw [List.eq_nil_iff_forall_not_mem]
      intro a ha
      obtain ⟨x, hx, hok⟩ := hat p q a hp ha
      exact absurd (hok.none.2 (hun x hx)) (by simp)
    have := hm.unknown hnil
    obtain ⟨hpn, -⟩ := List.getElem?_eq_some_iff.1 hp
    rw [this, List.getD_eq_getElem?_getD, List.getElem?_eq_getElem (by omega)]
    rfl

variable {C : WeightCodec} {wm : Option Nat} {m : Meta} {parts : List (List (List Rec))} {g : Graph}

/-- The row with the weight of a server. -/
theorem serverRow_created (watermark : Int) (hwm : 0 ≤ watermark) (D : Nat → WDraws) (hD : ∀ i, (D i).Ok) (ts : Int) (types : List Int)
    (count : Nat) (default : Nbr)
    (es : List (Partition × Nat)) (txsss : List (List (List TRun))) (h : es.mapM (readTimedAt ts types) = some txsss)
    (lsss : List (List (List (List (Nbr × Int))))) (hx : All2 (All2 (All2 TRunOk)) txsss lsss) (out : List (Nbr × Int))
    (acc : Int) (s : Nat) (h0 : 0 ≤ acc) (hle : acc + tsum lsss.flatten.flatten.flatten ≤ 2 ^ 23) (hlen : out.length = count) :
    serverRow (Partition.weightedTimes watermark (some ts) types count default) D es out acc s =
        (createdEntries D ts types count default es out acc s).map
          (fun z => ((acc + tsum lsss.flatten.flatten.flatten, z.1), z.2)) ∧
    serverRow (Partition.weightedMaybe (some ts) types count default) D es (out.map (·.1)) acc s =
        (createdEntries D ts types count default es out acc s).map
          (fun z => ((acc + tsum lsss.flatten.flatten.flatten, z.1.map (·.1)), z.2)) := by
  induction es generalizing txsss lsss out acc s with
  | nil =>
    obtain rfl : [] = txsss := by simpa using h
    cases hx
    simp [serverRow, createdEntries, tsum]
  | cons e es ih =>
    rw [List.mapM_cons] at h
    obtain ⟨xss, h1, h2⟩ := Option.bind_eq_some_iff.1 h
    obtain ⟨ysss, h3, h4⟩ := Option.bind_eq_some_iff.1 h2
    obtain rfl : xss :: ysss = txsss := by simpa using h4
    cases hx with
    | @cons _ lss _ lsss ha hb =>
      have hn1 : 0 ≤ tsum lss.flatten.flatten := by
        have := All2.tsum_nonneg (.cons ha .nil)
        simpa using this
      have hn2 := All2.tsum_nonneg hb
      have e0 : tsum ((lss :: lsss).flatten.flatten.flatten) = tsum lss.flatten.flatten + tsum lsss.flatten.flatten.flatten := by
        simp only [tsum, List.flatten_cons, List.flatten_append, List.map_append, nsum_append]
      rw [e0] at hle ⊢
      obtain ⟨o1, e1, e2, e3, e4, e5⟩ := timedPart_spec (D s) (hD s) count default xss lss ha out acc h0 (by omega) hlen
      obtain ⟨f1, f2⟩ := ih ysss h3 lsss hb o1 (acc + tsum lss.flatten.flatten) (s + 1) (by omega) (by omega) e2
      simp only [serverRow, createdEntries, Partition.weightedTimes, Partition.weightedMaybe, hwm, if_true]
      rw [createdPart_eq h1, e1, Option.bind_some, plainPart_eq (readRuns_of_timed h1), e3, Option.bind_some, Option.bind_some]
      rw [← Int.add_assoc]
      exact ⟨f1, f2⟩

/-- The answers of a server at a timestamp, with and without creation times. -/
theorem server_timed (h : Built C wm m parts g) (hwm : 0 ≤ m.watermark) (D : Nat → WDraws) (hD : ∀ i, (D i).Ok)
    (types : List Int) (count : Nat) (default : Nbr) (n t : Int)
    (hgap : Spec.NoGap parts n types) (hts : -(2 ^ 31) ≤ t ∧ t < 2 ^ 31)
    (ho : Spec.OrderedLifetimes parts n) (hrem : C69_removals parts n) (hw : C69_weightsOk parts n types)
    (hc : ∀ r ∈ Spec.allRecords parts, ∀ c, r.created = some c → 0 ≤ c)
    (hr : ∀ r ∈ Spec.allRecords parts, r.removed ≠ some 0) (s : Nat) :
    ∃ a s', g.serverRow1 (Partition.weightedTimes m.watermark (some t) (sortUnique types) count default) D
        (List.replicate count (default, noTime)) n s = some (a, s') ∧
      g.serverRow1 (Partition.weightedMaybe (some t) (sortUnique types) count default) D
        (List.replicate count default) n s = some (a.map fun x => (x.1, x.2.map (·.1)), s') ∧
      RowOk (∃ r ∈ allRecords parts, r.src = n) ((Spec.liveSlots parts n t types).map (·.weight)).sum
        (fun z => z ∈ (Spec.liveSlots parts n t types).map Spec.withTime) count (default, -1) a := by
  obtain ⟨items, hg, -⟩ := h.graphOk
  obtain ⟨es, txsss, lsss, h1, h2, h3, h4, h5, h6⟩ := readTimed_spec h hg hwm n t types hgap hts ho hrem hc hr hw
  have hsum : tsum lsss.flatten.flatten.flatten = ((Spec.liveSlots parts n t types).map (·.weight)).sum := by
    rw [h4, tsum, nsum, List.map_map, List.map_map]; rfl
  have hle := neighborsAt_le h hc hr n t types hw
  have hnb : Spec.neighborsAt parts n t types = ((Spec.liveSlots parts n t types).map Spec.withTime).map (·.1) := by
    rw [← inputEdges_neighborsAt parts n t _ h.acc hc hr, ← inputEdges_liveSlots parts n t _ h.acc hc hr,
      List.map_map, List.map_map]
    rfl
  rw [hnb, ← h4] at hle
  have hk : g.nodeMap n = none ↔ ¬∃ r ∈ allRecords parts, r.src = n := by
    rw [NodeMap_none hg n]; simp
  cases hnm : g.nodeMap n with
  | none =>
    refine ⟨none, s, by simp only [Graph.serverRow1, hnm], by simp only [Graph.serverRow1, hnm, Option.map_none], ?_, by simp⟩
    simpa using hk.1 hnm
  | some off =>
    obtain ⟨o, s', e1, -, e3, e4, e5⟩ := createdEntries_spec D hD t (sortUnique types) count default es txsss h2 lsss h3 []
      (List.replicate count (default, noTime)) 0 s (by omega) (by rw [tsum]; omega) (by simp)
      (fun _ hl => absurd hl (h6 (by rw [hnm]; simp))) (fun h => by omega)
    obtain ⟨f1, f2⟩ := serverRow_created m.watermark hwm D hD t (sortUnique types) count default es txsss h2 lsss h3
      (List.replicate count (default, noTime)) 0 s (by omega) (by rw [tsum]; omega) (by simp)
    rw [e1, Int.zero_add, hsum] at f1 f2
    rw [Int.zero_add, hsum] at e4 e5
    rw [List.map_replicate] at f2
    refine ⟨some (((Spec.liveSlots parts n t types).map (·.weight)).sum, o), s', ?_, ?_, ?_, ?_⟩
    · simp only [Graph.serverRow1, hnm, h1, Option.bind_some, f1, Option.map_some]
    · simp only [Graph.serverRow1, hnm, h1, Option.bind_some, f2, Option.map_some]
    · constructor
      · intro h; cases h
      · intro h; rw [hk.2 h] at hnm; cases hnm
    · intro x hx
      obtain rfl := Option.some.inj hx
      refine ⟨rfl, e3, ?_, e4⟩
      intro hp z hz
      have := e5 hp z hz
      rwa [List.nil_append, h4] at this

theorem RowOk.erase {α β : Type} {known : Prop} {total : Int} {P : α → Prop} {Q : β → Prop} {count : Nat} {default : α}
    {a : Option (Int × List α)} (h : RowOk known total P count default a) (f : α → β) (hf : ∀ z, P z → Q (f z)) :
    RowOk known total Q count (f default) (a.map fun x => (x.1, x.2.map f)) := by
  refine ⟨by rw [← h.none]; simp, ?_⟩
  intro x hx
  obtain ⟨y, rfl, rfl⟩ := Option.map_eq_some_iff.1 hx
  obtain ⟨h1, h2, h3, h4⟩ := h.some y rfl
  refine ⟨h1, by simpa using h2, ?_, ?_⟩
  · intro hp z hz
    obtain ⟨w, hw, rfl⟩ := List.mem_map.1 hz
    exact hf w (h3 hp w hw)
  · intro hz
    rw [show y.2 = _ from h4 hz, List.map_replicate]

/-- Requirements on the servers of a request at timestamps: records as for C69. -/
structure TimedServers (C : WeightCodec) (servers : List (List (List (List Rec)) × (Graph × Int))) (types : List Int)
    (reqs : List (Int × Int)) : Prop where
  built : ∀ x ∈ servers, ∃ wm m, m.watermark = x.2.2 ∧ 0 ≤ m.watermark ∧ Built C wm m x.1 x.2.1
  gap : ∀ x ∈ servers, ∀ q ∈ reqs, Spec.NoGap x.1 q.1 types
  range : ∀ q ∈ reqs, -(2 ^ 31) ≤ q.2 ∧ q.2 < 2 ^ 31
  ordered : ∀ x ∈ servers, ∀ q ∈ reqs, OrderedLifetimes x.1 q.1
  removals : ∀ x ∈ servers, ∀ q ∈ reqs, C69_removals x.1 q.1
  weights : ∀ x ∈ servers, ∀ q ∈ reqs, C69_weightsOk x.1 q.1 types
  created : ∀ x ∈ servers, ∀ r ∈ allRecords x.1, ∀ c, r.created = some c → 0 ≤ c
  removed : ∀ x ∈ servers, ∀ r ∈ allRecords x.1, r.removed ≠ some 0

/-- Total weight over all servers of the edges of a node that exist at a time. -/
def C91_weight (servers : List (List (List (List Rec)) × (Graph × Int))) (types : List Int) (q : Int × Int) : Int :=
  (servers.map fun x => ((liveSlots x.1 q.1 q.2 types).map (·.weight)).sum).sum

theorem timed_replies {servers : List (List (List (List Rec)) × (Graph × Int))} {types : List Int} {reqs : List (Int × Int)}
    (h : TimedServers C servers types reqs) (Ds : List (Nat → WDraws)) (hlen : Ds.length = servers.length)
    (hDs : ∀ E ∈ Ds, ∀ i, (E i).Ok) (count : Nat) (default : Nbr) :
    ∃ asL : List (List (Option (Int × List (Nbr × Int)))),
      (((servers.map (·.2)).zip Ds).mapM fun x : (Graph × Int) × (Nat → WDraws) =>
        x.1.1.serverWeightedTimes x.1.2 x.2 (sortUnique types) count default (reqs.map fun q => (q.1, some q.2))) =
        some (asL.map (wReply (reqs.map (·.1)))) ∧
      (((servers.map (·.2.1)).zip Ds).mapM fun x : Graph × (Nat → WDraws) =>
        x.1.serverWeightedAt x.2 (sortUnique types) count default (reqs.map fun q => (q.1, some q.2))) =
        some ((asL.map (·.map (Option.map fun x => (x.1, x.2.map (·.1))))).map (wReply (reqs.map (·.1)))) ∧
      All2 (fun x as => All2 (fun q a => RowOk (∃ r ∈ allRecords x.1, r.src = q.1)
        ((liveSlots x.1 q.1 q.2 types).map (·.weight)).sum (fun z => z ∈ (liveSlots x.1 q.1 q.2 types).map withTime)
        count (default, -1) a) reqs as) servers asL := by
  induction servers generalizing Ds with
  | nil => exact ⟨[], rfl, rfl, .nil⟩
  | cons x servers ih =>
    cases Ds with
    | nil => simp at hlen
    | cons E Ds =>
      obtain ⟨asL, h1, h2, h3⟩ := ih ⟨fun z hz => h.built z (by simp [hz]), fun z hz => h.gap z (by simp [hz]), h.range,
        fun z hz => h.ordered z (by simp [hz]), fun z hz => h.removals z (by simp [hz]), fun z hz => h.weights z (by simp [hz]),
        fun z hz => h.created z (by simp [hz]), fun z hz => h.removed z (by simp [hz])⟩ Ds (by simpa using hlen)
        (fun E hE => hDs E (by simp [hE]))
      obtain ⟨wm, m, hm, hwm, hb⟩ := h.built x (by simp)
      have hmem : x ∈ x :: servers := by simp
      have key : ∀ (rs : List (Int × Int)), (∀ q ∈ rs, q ∈ reqs) → ∀ (s : Nat) (r : WReply (Nbr × Int)), ∃ as,
          serverRows (fun (q : Int × Option Int) s => x.2.1.serverRow1 (Partition.weightedTimes x.2.2 q.2 (sortUnique types) count default) E
            (List.replicate count (default, noTime)) q.1 s) (·.1) (rs.map fun q => (q.1, some q.2)) s r =
            some { nodes := r.nodes ++ (wReply (rs.map (·.1)) as).nodes, nbrs := r.nbrs ++ (wReply (rs.map (·.1)) as).nbrs } ∧
          (∀ r' : WReply Nbr, serverRows (fun (q : Int × Option Int) s => x.2.1.serverRow1 (Partition.weightedMaybe q.2 (sortUnique types) count default) E
            (List.replicate count default) q.1 s) (·.1) (rs.map fun q => (q.1, some q.2)) s r' =
            some { nodes := r'.nodes ++ (wReply (rs.map (·.1)) (as.map (Option.map fun x => (x.1, x.2.map (·.1))))).nodes,
                   nbrs := r'.nbrs ++ (wReply (rs.map (·.1)) (as.map (Option.map fun x => (x.1, x.2.map (·.1))))).nbrs }) ∧
          All2 (fun q a => RowOk (∃ r ∈ allRecords x.1, r.src = q.1)
            ((liveSlots x.1 q.1 q.2 types).map (·.weight)).sum (fun z => z ∈ (liveSlots x.1 q.1 q.2 types).map withTime)
            count (default, -1) a) rs as := by
        intro rs hrs
        induction rs with
        | nil => intro s r; exact ⟨[], by simp [serverRows, wReply, knownNodes], by simp [serverRows, wReply, knownNodes], .nil⟩
        | cons q rs ihr =>
          intro s r
          have hq := hrs q (by simp)
          obtain ⟨a, s', g1, g2, g3⟩ := server_timed hb hwm E (hDs E (by simp)) types count default q.1 q.2 (h.gap x hmem q hq)
            (h.range q hq) (h.ordered x hmem q hq) (h.removals x hmem q hq) (h.weights x hmem q hq) (h.created x hmem)
            (h.removed x hmem) s
          obtain ⟨as, f1, f2, f3⟩ := ihr (fun k hk => hrs k (by simp [hk])) s' (a.elim r fun a =>
            { nodes := r.nodes ++ [(q.1, a.1)], nbrs := r.nbrs ++ a.2 })
          refine ⟨a :: as, ?_, ?_, .cons g3 f3⟩
          · rw [List.map_cons, serverRows]
            dsimp only
            rw [← hm, g1, Option.bind_some]
            dsimp only
            rw [hm, f1]
            cases a with
            | none => simp [wReply, knownNodes_cons]
            | some a => simp [wReply, knownNodes_cons]
          · intro r'
            rw [List.map_cons, serverRows]
            dsimp only
            rw [g2, Option.bind_some]
            dsimp only
            rw [f2]
            cases a with
            | none => simp [wReply, knownNodes_cons]
            | some a => simp [wReply, knownNodes_cons]
      obtain ⟨as, f1, f2, f3⟩ := key reqs (fun _ h => h) 0 ⟨[], []⟩
      refine ⟨as :: asL, ?_, ?_, .cons f3 h3⟩
      · rw [List.map_cons, List.zip_cons_cons, List.mapM_cons, h1, Graph.serverWeightedTimes, f1]
        rfl
      · rw [List.map_cons, List.zip_cons_cons, List.mapM_cons, h2, Graph.serverWeightedAt, f2]
        rfl

theorem mem_timedEdges {nc : Int} {nr : Option Int} {rs : List Rec} {e : TimedEdge} (h : e ∈ timedEdges nc nr rs) :
    ∃ r ∈ rs, r.dst ≠ -1 ∧ r.src = e.src ∧ r.dst = e.dst ∧ r.typ = e.typ ∧ r.weight = e.weight := by
  induction rs generalizing nc nr with
  | nil => simp [timedEdges] at h
  | cons r rs ih =>
    simp only [timedEdges] at h
    split at h
    · obtain ⟨q, hq, h⟩ := ih h
      exact ⟨q, by simp [hq], h⟩
    · rename_i hd
      rcases List.mem_cons.1 h with rfl | h
      · exact ⟨r, by simp, hd, rfl, rfl, rfl, rfl⟩
      · obtain ⟨q, hq, h⟩ := ih h
        exact ⟨q, by simp [hq], h⟩

/-- Every edge that exists at a time is one of the edges of the node. -/
theorem liveSlots_neighbor {n t : Int} {types : List Int} {x : Slot} (h : x ∈ liveSlots parts n t types) :
    ∃ r ∈ allRecords parts, r.src = n ∧ (⟨r.dst, r.typ, r.weight⟩ : Nbr) = ⟨x.dst, x.typ, x.weight⟩ ∧
      (⟨x.dst, x.typ, x.weight⟩ : Nbr) ∈ neighbors parts n types := by
  obtain ⟨e, he, rfl⟩ := List.mem_map.1 h
  rw [List.mem_filter] at he
  obtain ⟨h1, h2⟩ := he
  obtain ⟨rs, hrs, he⟩ := List.mem_flatMap.1 h1
  obtain ⟨r, hr, hd, e1, e2, e3, e4⟩ := mem_timedEdges he
  have hm : r ∈ allRecords parts := by
    simp only [allRecords]
    exact List.mem_flatten.2 ⟨rs, hrs, hr⟩
  have h2 : e.src = n ∧ e.typ ∈ types ∧ e.aliveAt t = true := by simpa using h2
  refine ⟨r, hm, by rw [e1]; exact h2.1, by rw [e2, e3, e4], ?_⟩
  simp only [neighbors, edgeRecords, List.mem_map]
  refine ⟨r, ?_, by rw [e2, e3, e4]⟩
  simp only [List.mem_filter]
  simp [hm, hd, e1, e3, h2.1, h2.2.1]

theorem liveSlots_unknown {n t : Int} {types : List Int} (h : ¬∃ r ∈ allRecords parts, r.src = n) :
    liveSlots parts n t types = [] := by
  rw [List.eq_nil_iff_forall_not_mem]
  intro x hx
  obtain ⟨r, hr, hs, -⟩ := liveSlots_neighbor hx
  exact h ⟨r, hr, hs⟩

theorem liveSlots_nonneg {n t : Int} {types : List Int} (h : C69_weightsOk parts n types) :
    0 ≤ ((liveSlots parts n t types).map (·.weight)).sum := by
  have : ∀ l : List Int, (∀ x ∈ l, 0 ≤ x) → 0 ≤ l.sum := by
    intro l hl
    induction l with
    | nil => simp
    | cons x l ih =>
      have h1 := hl x (by simp)
      have h2 := ih (fun y hy => hl y (by simp [hy]))
      rw [List.sum_cons]; omega
  apply this
  intro w hw
  obtain ⟨x, hx, rfl⟩ := List.mem_map.1 hw
  obtain ⟨-, -, -, -, hn⟩ := liveSlots_neighbor hx
  exact h.1 _ hn

/-- Weighted samples at timestamps from any number of servers, for all draws of the servers and nonzero draws of the client, merged in
any order: every entry is an edge that exists at the timestamp on one of the servers, with its weight and its creation time; if the
total weight is 0 all entries are the default with the placeholder; the row of a node that no server knows is not written.
Missing: as for C69, and draws of exactly 0 (`C19_zero_refuted`). -/
theorem C91_servers_weighted_partial (servers : List (List (List (List Rec)) × (Graph × Int))) (types : List Int)
    (reqs : List (Int × Int)) (h : TimedServers C servers types reqs)
    (Ds : List (Nat → WDraws)) (hlen : Ds.length = servers.length) (hDs : ∀ E ∈ Ds, ∀ i, (E i).Ok)
    (D : WDraws) (hD : ∀ i, 0 < (D.real i).1) (count : Nat) (default : Nbr)
    (outs0 : List (List (Nbr × Int))) (h0 : outs0.length = reqs.length) (hc : ∀ o ∈ outs0, o.length = count)
    (hsum : ∀ q ∈ reqs, C91_weight servers types q ≤ 2 ^ 24)
    (order : List (WReply (Nbr × Int)) → List (Ev (WReply (Nbr × Int))))
    (hord : ∀ rs, rs.length = servers.length → Schedule rs (order rs)) :
    ∃ outs, sampleServersTimes ((servers.map (·.2)).zip Ds) D types count default (reqs.map fun q => (q.1, some q.2)) outs0 order =
        some outs ∧ outs.length = reqs.length ∧
      ∀ (p : Nat) (q : Int × Int) (out : List (Nbr × Int)), reqs[p]? = some q → outs[p]? = some out → out.length = count ∧
        (0 < C91_weight servers types q → ∀ z ∈ out, ∃ x ∈ servers, z ∈ (liveSlots x.1 q.1 q.2 types).map withTime) ∧
        (C91_weight servers types q = 0 → (∃ x ∈ servers, ∃ r ∈ allRecords x.1, r.src = q.1) →
          out = List.replicate count (default, -1)) ∧
        ((∀ x ∈ servers, ∀ r ∈ allRecords x.1, r.src ≠ q.1) → outs0[p]? = some out) := by
  obtain ⟨asL, h1, -, h3⟩ := timed_replies h Ds hlen hDs count default
  obtain ⟨outs, e1, e2, e3⟩ := rows_merged servers reqs (·.1) (fun x n => ∃ r ∈ allRecords x.1, r.src = n)
    (fun x q => ((liveSlots x.1 q.1 q.2 types).map (·.weight)).sum)
    (fun x q z => z ∈ (liveSlots x.1 q.1 q.2 types).map withTime) count (default, -1) asL h3
    (fun x hx q hq hk => by rw [liveSlots_unknown hk]; rfl) (fun x hx q hq => liveSlots_nonneg (h.weights x hx q hq)) hsum D hD outs0 h0 hc
    (order (asL.map (wReply (reqs.map (·.1))))) (hord _ (by rw [List.length_map, h3.length]))
  refine ⟨outs, ?_, e2, ?_⟩
  · have hz : ((servers.map (·.2)).zip Ds).length = asL.length := by simp [hlen, h3.length]
    rw [sampleServersTimes, h1, Option.bind_some, hz, List.map_map]
    exact e1
  · intro p q out hp hout
    obtain ⟨f1, f2, f3, f4⟩ := e3 p q out hp hout
    exact ⟨f1, f2, f3, fun hu => f4 fun x hx ⟨r, hr, hs⟩ => hu x hx r hr hs⟩

theorem All2.map_right {α β γ : Type} {R : α → β → Prop} {S : α → γ → Prop} (f : β → γ) {l : List α} {k : List β} (h : All2 R l k)
    (hf : ∀ a b, R a b → S a (f b)) : All2 S l (k.map f) := by
  induction h with
  | nil => exact .nil
  | cons hr _ ih => exact .cons (hf _ _ hr) ih

/-- Weighted samples at timestamps from any number of servers without creation times: every entry is an edge that exists at the
timestamp on one of the servers.  Missing: as in `C91_servers_weighted_partial`. -/
theorem C69_servers_partial (servers : List (List (List (List Rec)) × (Graph × Int))) (types : List Int)
    (reqs : List (Int × Int)) (h : TimedServers C servers types reqs)
    (Ds : List (Nat → WDraws)) (hlen : Ds.length = servers.length) (hDs : ∀ E ∈ Ds, ∀ i, (E i).Ok)
    (D : WDraws) (hD : ∀ i, 0 < (D.real i).1) (count : Nat) (default : Nbr)
    (outs0 : List (List Nbr)) (h0 : outs0.length = reqs.length) (hc : ∀ o ∈ outs0, o.length = count)
    (hsum : ∀ q ∈ reqs, (servers.map fun x => ((neighborsAt x.1 q.1 q.2 types).map (·.weight)).sum).sum ≤ 2 ^ 24)
    (order : List WReply → List (Ev WReply)) (hord : ∀ rs, rs.length = servers.length → Schedule rs (order rs)) :
    ∃ outs, sampleServersAt ((servers.map (·.2.1)).zip Ds) D types count default (reqs.map fun q => (q.1, some q.2)) outs0 order =
        some outs ∧ outs.length = reqs.length ∧
      ∀ (p : Nat) (q : Int × Int) (out : List Nbr), reqs[p]? = some q → outs[p]? = some out → out.length = count ∧
        (0 < (servers.map fun x => ((neighborsAt x.1 q.1 q.2 types).map (·.weight)).sum).sum →
          ∀ z ∈ out, ∃ x ∈ servers, z ∈ neighborsAt x.1 q.1 q.2 types) ∧
        ((servers.map fun x => ((neighborsAt x.1 q.1 q.2 types).map (·.weight)).sum).sum = 0 →
          (∃ x ∈ servers, ∃ r ∈ allRecords x.1, r.src = q.1) → out = List.replicate count default) ∧
        ((∀ x ∈ servers, ∀ r ∈ allRecords x.1, r.src ≠ q.1) → outs0[p]? = some out) := by
  have hnb : ∀ (x : List (List (List Rec)) × (Graph × Int)) (q : Int × Int),
      neighborsAt x.1 q.1 q.2 types = ((liveSlots x.1 q.1 q.2 types).map withTime).map (·.1) := by
    intro x q
    rw [neighborsAt, liveSlots, List.map_map, List.map_map]
    rfl
  have hws : ∀ (x : List (List (List Rec)) × (Graph × Int)) (q : Int × Int),
      ((neighborsAt x.1 q.1 q.2 types).map (·.weight)).sum = ((liveSlots x.1 q.1 q.2 types).map (·.weight)).sum := by
    intro x q
    rw [hnb, List.map_map, List.map_map]
    rfl
  simp only [hws] at hsum ⊢
  obtain ⟨asL, -, h1, h3⟩ := timed_replies h Ds hlen hDs count default
  have h4 := h3.map_right (S := fun x as => All2 (fun q a => RowOk (∃ r ∈ allRecords x.1, r.src = q.1)
        ((liveSlots x.1 q.1 q.2 types).map (·.weight)).sum (fun z => z ∈ neighborsAt x.1 q.1 q.2 types)
        count default a) reqs as) (·.map (Option.map fun x => (x.1, x.2.map (·.1)))) (by
      intro x as hx
      apply hx.map_right
      intro q a hr
      exact hr.erase (·.1) fun z hz => by rw [hnb]; exact List.mem_map.2 ⟨z, hz, rfl⟩)
  obtain ⟨outs, e1, e2, e3⟩ := rows_merged servers reqs (·.1) (fun x n => ∃ r ∈ allRecords x.1, r.src = n)
    (fun x q => ((liveSlots x.1 q.1 q.2 types).map (·.weight)).sum)
    (fun x q z => z ∈ neighborsAt x.1 q.1 q.2 types) count default _ h4
    (fun x hx q hq hk => by rw [liveSlots_unknown hk]; rfl) (fun x hx q hq => liveSlots_nonneg (h.weights x hx q hq)) hsum D hD outs0 h0 hc
    (order _) (hord _ (by rw [List.length_map, h4.length]))
  refine ⟨outs, ?_, e2, ?_⟩
  · have hz : ((servers.map (·.2.1)).zip Ds).length = asL.length := by simp [hlen, h3.length]
    rw [sampleServersAt, h1, Option.bind_some, hz, List.map_map]
    rw [List.length_map] at e1
    exact e1
  · intro p q out hp hout
    obtain ⟨f1, f2, f3, f4⟩ := e3 p q out hp hout
    exact ⟨f1, f2, f3, fun hu => f4 fun x hx ⟨r, hr, hs⟩ => hu x hx r hr hs⟩

/-! Requests without timestamps -/

theorem serverRow_untimed (watermark : Int) (D : Nat → WDraws) (types : List Int) (count : Nat) (default : Nbr)
    (es : List (Partition × Nat)) (out : List Nbr) (acc : Int) (s : Nat) :
    serverRow (Partition.weightedTimes watermark none types count default) D es (out.map (·, noTime)) acc s =
      (serverEntries D types count default es out acc s).map fun z => ((z.1.1, z.1.2.map (·, noTime)), z.2) := by
  induction es generalizing out acc s with
  | nil => rfl
  | cons e es ih =>
    rw [serverRow, serverEntries]
    simp only [Partition.weightedTimes, List.map_map, Function.comp_def, List.map_id']
    cases e.1.weightedSample (D s) e.2 types count default out acc with
    | none => rfl
    | some z =>
      simp only [Option.map_some, Option.bind_some]
      exact ih z.1 z.2 (s + 1)

/-- Without timestamps in the request: every sampled neighbour comes with the placeholder, whatever the servers are and although the
edges have creation times. -/
theorem C91_servers_weighted_untimed_refuted (servers : List (List (List (List Rec)) × (Graph × Int)))
    (hb : ∀ x ∈ servers, ∃ wm m, Built C wm m x.1 x.2.1)
    (Ds : List (Nat → WDraws)) (hlen : Ds.length = servers.length) (hDs : ∀ E ∈ Ds, ∀ i, (E i).Ok)
    (D : WDraws) (hD : ∀ i, 0 < (D.real i).1) (types : List Int) (count : Nat) (default : Nbr) (nodes : List Int)
    (outs0 : List (List (Nbr × Int))) (h0 : outs0.length = nodes.length) (hc : ∀ o ∈ outs0, o.length = count)
    (hgap : ∀ x ∈ servers, ∀ n ∈ nodes, Spec.NoGap x.1 n types) (hw : ∀ x ∈ servers, ∀ n ∈ nodes, C19_weightsOk x.1 n types)
    (hsum : ∀ n ∈ nodes, (servers.map fun x => ((neighbors x.1 n types).map (·.weight)).sum).sum ≤ 2 ^ 24)
    (order : List (WReply (Nbr × Int)) → List (Ev (WReply (Nbr × Int))))
    (hord : ∀ rs, rs.length = servers.length → Schedule rs (order rs)) :
    ∃ outs, sampleServersTimes ((servers.map (·.2)).zip Ds) D types count default (nodes.map fun n => (n, none)) outs0 order =
        some outs ∧ outs.length = nodes.length ∧
      ∀ (p : Nat) (n : Int) (out : List (Nbr × Int)), nodes[p]? = some n → outs[p]? = some out →
        (∃ x ∈ servers, ∃ r ∈ allRecords x.1, r.src = n) → ∀ z ∈ out, z.2 = -1 := by
  have hs : ∀ x ∈ servers, ∀ n ∈ nodes, Samplable x.1 types n := fun x hx n hn => ⟨hgap x hx n hn, hw x hx n hn⟩
  have hrep : ∃ asL : List (List (Option (Int × List (Nbr × Int)))),
      (((servers.map (·.2)).zip Ds).mapM fun x : (Graph × Int) × (Nat → WDraws) =>
        x.1.1.serverWeightedTimes x.1.2 x.2 (sortUnique types) count default (nodes.map fun n => (n, none))) =
        some (asL.map (wReply nodes)) ∧
      All2 (fun x as => All2 (fun n a => RowOk (∃ r ∈ allRecords x.1, r.src = n)
        ((neighbors x.1 n types).map (·.weight)).sum (fun z => z.2 = -1) count (default, -1) a) nodes as) servers asL := by
    clear hgap hw hsum hord
    induction servers generalizing Ds with
    | nil => exact ⟨[], rfl, .nil⟩
    | cons x servers ih =>
      cases Ds with
      | nil => simp at hlen
      | cons E Ds =>
        obtain ⟨asL, h1, h2⟩ := ih (fun z hz => hb z (by simp [hz])) Ds (by simpa using hlen) (fun E hE => hDs E (by simp [hE]))
          (fun z hz => hs z (by simp [hz]))
        obtain ⟨wm, m, hb⟩ := hb x (by simp)
        obtain ⟨as, f1, f2⟩ := serverRows_ok (fun (q : Int × Option Int) s => x.2.1.serverRow1
            (Partition.weightedTimes x.2.2 q.2 (sortUnique types) count default) E (List.replicate count (default, noTime)) q.1 s) (·.1)
          (fun q a => RowOk (∃ r ∈ allRecords x.1, r.src = q.1)
            ((neighbors x.1 q.1 types).map (·.weight)).sum (fun z => z.2 = -1) count (default, -1) a) (nodes.map fun n => (n, none)) (by
              intro q hq s
              obtain ⟨n, hn, rfl⟩ := List.mem_map.1 hq
              obtain ⟨a, s', g1, g2⟩ := server_ok hb types n (hs x (by simp) n hn) E (hDs E (by simp)) count default s
              refine ⟨a.map fun x => (x.1, x.2.map (·, noTime)), s', ?_, ?_⟩
              · simp only [Graph.serverRow1, Graph.serverWeighted1] at g1 ⊢
                cases hnm : x.2.1.nodeMap n with
                | none =>
                  rw [hnm] at g1
                  obtain ⟨rfl, rfl⟩ := Prod.mk.inj (Option.some.inj g1)
                  rfl
                | some off =>
                  rw [hnm] at g1
                  obtain ⟨es, k1, k2⟩ := Option.bind_eq_some_iff.1 g1
                  obtain ⟨z, k3, k4⟩ := Option.map_eq_some_iff.1 k2
                  obtain ⟨rfl, rfl⟩ := Prod.mk.inj k4
                  have := serverRow_untimed x.2.2 E (sortUnique types) count default es (List.replicate count default) 0 s
                  rw [List.map_replicate] at this
                  simp only [k1, Option.bind_some, this, k3, Option.map_some]
              · refine ⟨by have := g2.none; simp only [Option.map_eq_none_iff, this]; simp, ?_⟩
                intro y hy
                obtain ⟨w, rfl, rfl⟩ := Option.map_eq_some_iff.1 hy
                obtain ⟨k1, k2, -, k4⟩ := g2.some w rfl
                refine ⟨k1, by simpa using k2, ?_, ?_⟩
                · intro _ z hz
                  obtain ⟨v, -, rfl⟩ := List.mem_map.1 hz
                  rfl
                · intro hz
                  rw [show w.2 = _ from k4 hz, List.map_replicate]
                  rfl) 0 ⟨[], []⟩
        rw [List.map_map, show ((fun x : Int × Option Int => x.1) ∘ fun n : Int => (n, none)) = id from rfl, List.map_id] at f1
        refine ⟨as :: asL, ?_, .cons ?_ h2⟩
        · rw [List.map_cons, List.zip_cons_cons, List.mapM_cons, h1, Graph.serverWeightedTimes, f1]
          rfl
        · have : ∀ (ns : List Int) (as : List (Option (Int × List (Nbr × Int)))),
              All2 (fun (q : Int × Option Int) a => RowOk (∃ r ∈ allRecords x.1, r.src = q.1)
                ((neighbors x.1 q.1 types).map (·.weight)).sum (fun z : Nbr × Int => z.2 = -1) count (default, -1) a)
                (ns.map fun n => (n, none)) as →
              All2 (fun n a => RowOk (∃ r ∈ allRecords x.1, r.src = n)
                ((neighbors x.1 n types).map (·.weight)).sum (fun z : Nbr × Int => z.2 = -1) count (default, -1) a) ns as := by
            intro ns
            induction ns with
            | nil => intro as h; cases h; exact .nil
            | cons n ns ih => intro as h; cases h with | cons a b => exact .cons a (ih _ b)
          exact this _ _ f2
  obtain ⟨asL, h1, h3⟩ := hrep
  obtain ⟨outs, e1, e2, e3⟩ := rows_merged servers nodes id (fun x n => ∃ r ∈ allRecords x.1, r.src = n)
    (fun x n => ((neighbors x.1 n types).map (·.weight)).sum)
    (fun _ _ z => z.2 = -1) count (default, -1) asL h3
    (fun x hx q hq hk => by rw [neighbors_unknown types (by simpa using hk)]; rfl)
    (fun x hx q hq => NonNeg.sum (hs x hx q hq).weights.1) hsum D hD outs0 h0 hc
    (order (asL.map (wReply nodes))) (by rw [List.map_id]; exact hord _ (by rw [List.length_map, h3.length]))
  refine ⟨outs, ?_, e2, ?_⟩
  · have hz : ((servers.map (·.2)).zip Ds).length = asL.length := by simp [hlen, h3.length]
    rw [sampleServersTimes, h1, Option.bind_some, hz, List.map_map]
    exact e1
  · intro p n out hp hout hk z hz
    obtain ⟨f1, f2, f3, f4⟩ := e3 p n out hp hout
    have hn := List.mem_of_getElem? hp
    have hnn : 0 ≤ (servers.map fun x => ((neighbors x.1 n types).map (·.weight)).sum).sum := by
      have : ∀ l : List (List (List (List Rec)) × (Graph × Int)), (∀ x ∈ l, x ∈ servers) →
          0 ≤ (l.map fun x => ((neighbors x.1 n types).map (·.weight)).sum).sum := by
        intro l hl
        induction l with
        | nil => simp
        | cons x l ih =>
          have h1 : 0 ≤ ((neighbors x.1 n types).map (·.weight)).sum := NonNeg.sum (hs x (hl x (by simp)) n hn).weights.1
          have h2 := ih (fun y hy => hl y (by simp [hy]))
          rw [List.map_cons, List.sum_cons]; omega
      exact this _ fun _ h => h
    by_cases hp : 0 < (servers.map fun x => ((neighbors x.1 n types).map (·.weight)).sum).sum
    · obtain ⟨_, _, h⟩ := f2 hp z hz
      exact h
    · rw [f3 (by omega) hk] at hz
      rw [(List.mem_replicate.1 hz).2]

/-! The neighbours do not depend on the times. -/

/-- A reply without the times. -/
def eraseW {α β : Type} (f : α → β) (r : WReply α) : WReply β := { nodes := r.nodes, nbrs := r.nbrs.map f }

/-- An event of a request without the times. -/
def eraseEv {α β : Type} (f : α → β) : Ev (WReply α) → Ev (WReply β)
  | .recv i r => .recv i (eraseW f r)
  | .run i => .run i

def eraseCell {α β : Type} (f : α → β) (c : WCell α) : WCell β := { node := c.node, weight := c.weight, row := c.row.map f }

theorem overwriteRow_map {α β : Type} (f : α → β) (D : WDraws) (rate : Int × Int) (ys os : List α) (r : Nat) :
    overwriteRow D rate (ys.map f) (os.map f) r = ((overwriteRow D rate ys os r).1.map f, (overwriteRow D rate ys os r).2) := by
  induction ys generalizing os r with
  | nil => cases os <;> rfl
  | cons y ys ih =>
    cases os with
    | nil => rfl
    | cons o os =>
      simp only [List.map_cons, overwriteRow, ih]
      split
      · split <;> rfl
      · rfl

theorem mergeWeightedLoop_map {α β : Type} (f : α → β) (D : WDraws) (count : Nat) (default : α) (ns : List (Int × Int)) (flat : List α)
    (cells : List (WCell α)) (r : Nat) :
    mergeWeightedLoop D count (f default) ns (flat.map f) (cells.map (eraseCell f)) r =
      (mergeWeightedLoop D count default ns flat cells r).map fun z => (z.1.map (eraseCell f), z.2) := by
  induction ns generalizing flat cells r with
  | nil => rfl
  | cons x ns ih =>
    obtain ⟨n, w⟩ := x
    have h1 : (cells.map (eraseCell f)).dropWhile (fun c => c.node ≠ n) = (cells.dropWhile (fun c => c.node ≠ n)).map (eraseCell f) := by
      rw [List.dropWhile_map]; rfl
    have h2 : (cells.map (eraseCell f)).takeWhile (fun c => c.node ≠ n) = (cells.takeWhile (fun c => c.node ≠ n)).map (eraseCell f) := by
      rw [List.takeWhile_map]; rfl
    simp only [mergeWeightedLoop, h1, h2]
    cases cells.dropWhile (fun c => c.node ≠ n) with
    | nil => rfl
    | cons c cs =>
      simp only [List.map_cons, List.length_map]
      split
      · rfl
      · have h3 : (if f32 ((eraseCell f c).weight + w) = 0 then (List.replicate count (f default), r) else
              overwriteRow D (w, f32 ((eraseCell f c).weight + w)) ((flat.map f).take count) (eraseCell f c).row r) =
            ((if f32 (c.weight + w) = 0 then (List.replicate count default, r) else
              overwriteRow D (w, f32 (c.weight + w)) (flat.take count) c.row r).1.map f,
             (if f32 (c.weight + w) = 0 then (List.replicate count default, r) else
              overwriteRow D (w, f32 (c.weight + w)) (flat.take count) c.row r).2) := by
          by_cases hz : f32 (c.weight + w) = 0
          · simp [eraseCell, hz]
          · simp only [eraseCell, hz, if_false]
            rw [← List.map_take, overwriteRow_map]
        rw [h3, ← List.map_drop, ih, Option.map_map, Option.map_map]
        congr 1
        funext y
        simp [eraseCell]

theorem eachReply_sim {ρ ρ' α α' : Type} (f : ρ → ρ') (k : α → α') (cb : Nat → ρ → α → Option α) (cb' : Nat → ρ' → α' → Option α')
    (hcb : ∀ i r a, cb' i (f r) (k a) = (cb i r a).map k) (fe : Ev ρ → Ev ρ') (hr : ∀ i r, fe (.recv i r) = .recv i (f r))
    (hu : ∀ i, fe (.run i) = .run i) (evs : List (Ev ρ)) (s : EachReply ρ α) :
    ((evs.map fe).foldl (EachReply.step cb') { replies := s.replies.map f, out := s.out.map k }).out =
      ((evs.foldl (EachReply.step cb) s).out).map k := by
  induction evs generalizing s with
  | nil => rfl
  | cons e evs ih =>
    rw [List.map_cons, List.foldl_cons, List.foldl_cons, ← ih]
    congr 2
    cases e with
    | recv i r => rw [hr]; simp [EachReply.step, List.map_set]
    | run i =>
      rw [hu]
      simp only [EachReply.step, List.getElem?_map]
      cases s.replies[i]? with
      | none => rfl
      | some r =>
        cases s.out with
        | none => rfl
        | some a => simp [hcb]

/-- The merged sample without its creation times is the sample merged from the replies without creation times, for all replies, draws
and orders. -/
theorem C91_weighted_same (D : WDraws) (count : Nat) (default : Nbr) (nodes : List Int) (outs : List (List (Nbr × Int)))
    (evs : List (Ev (WReply (Nbr × Int)))) (servers : Nat) :
    remoteWeighted D count default nodes (outs.map (·.map (·.1))) (evs.map (eraseEv (·.1))) servers =
      (remoteWeighted D count (default, -1) nodes outs evs servers).map (·.map (·.map (·.1))) := by
  have := eachReply_sim (eraseW (·.1)) (fun st : List (WCell (Nbr × Int)) × Nat => (st.1.map (eraseCell (·.1)), st.2))
    (mergeWeighted D count (default, -1)) (mergeWeighted D count default)
    (by intro i r a; exact mergeWeightedLoop_map (·.1) D count (default, -1) r.nodes r.nbrs a.1 a.2)
    (eraseEv (·.1)) (fun _ _ => rfl) (fun _ => rfl) evs
    { replies := List.replicate servers ⟨[], []⟩, out := some ((nodes.zip outs).map fun x => ⟨x.1, 0, x.2⟩, 0) }
  simp only [remoteWeighted, eachReply]
  rw [List.map_replicate, Option.map_some] at this
  have hz : (nodes.zip (outs.map (·.map (·.1)))).map (fun x => (⟨x.1, 0, x.2⟩ : WCell Nbr)) =
      ((nodes.zip outs).map fun x => (⟨x.1, 0, x.2⟩ : WCell (Nbr × Int))).map (eraseCell (·.1)) := by
    rw [List.zip_map_right, List.map_map, List.map_map]
    rfl
  rw [hz]
  rw [show (eraseW (fun x : Nbr × Int => x.1) ⟨[], []⟩) = (⟨[], []⟩ : WReply Nbr) from rfl] at this
  rw [this, Option.map_map, Option.map_map]
  congr 1
  funext st
  simp [eraseCell, Function.comp_def]

theorem wReply_erase (nodes : List Int) (as : List (Option (Int × List (Nbr × Int)))) :
    wReply nodes (as.map (Option.map fun x => (x.1, x.2.map (·.1)))) = eraseW (·.1) (wReply nodes as) := by
  induction nodes generalizing as with
  | nil => rfl
  | cons n nodes ih =>
    cases as with
    | nil => rfl
    | cons a as =>
      have := ih as
      simp only [wReply, eraseW, WReply.mk.injEq] at this ⊢
      rw [List.map_cons, knownNodes_cons, knownNodes_cons]
      cases a with
      | none => simpa using this
      | some a => simpa using this

/-- Asking for creation times does not change which neighbours are sampled: the same draws, and the replies handled in the same order. -/
theorem C91_servers_weighted_same (servers : List (List (List (List Rec)) × (Graph × Int))) (types : List Int)
    (reqs : List (Int × Int)) (h : TimedServers C servers types reqs)
    (Ds : List (Nat → WDraws)) (hlen : Ds.length = servers.length) (hDs : ∀ E ∈ Ds, ∀ i, (E i).Ok)
    (D : WDraws) (count : Nat) (default : Nbr) (outs0 : List (List (Nbr × Int)))
    (order : List (WReply (Nbr × Int)) → List (Ev (WReply (Nbr × Int)))) (order' : List WReply → List (Ev WReply))
    (hord : ∀ rs, order' (rs.map (eraseW (·.1))) = (order rs).map (eraseEv (·.1))) :
    sampleServersAt ((servers.map (·.2.1)).zip Ds) D types count default (reqs.map fun q => (q.1, some q.2))
        (outs0.map (·.map (·.1))) order' =
      (sampleServersTimes ((servers.map (·.2)).zip Ds) D types count default (reqs.map fun q => (q.1, some q.2)) outs0 order).map
        (·.map (·.map (·.1))) := by
  obtain ⟨asL, h1, h2, h3⟩ := timed_replies h Ds hlen hDs count default
  have he : (asL.map (·.map (Option.map fun x => (x.1, x.2.map (·.1))))).map (wReply (reqs.map (·.1))) =
      (asL.map (wReply (reqs.map (·.1)))).map (eraseW (·.1)) := by
    rw [List.map_map, List.map_map]
    apply List.map_congr_left
    intro as _
    exact wReply_erase _ as
  rw [sampleServersAt, sampleServersTimes, h1, h2, Option.bind_some, Option.bind_some, he, hord, C91_weighted_same]
  simp only [List.length_zip, List.length_map]
  rfl

/-- Two servers with edges of the same node; one of them has a second node. -/
def C91_left : List (List (List Rec)) := [[[⟨1, -1, 0, 1, some 0, none, []⟩, ⟨1, 2, 0, 1, some 2, none, []⟩]]]

def C91_right : List (List (List Rec)) :=
  [[[⟨1, -1, 0, 1, some 0, none, []⟩, ⟨1, 3, 0, 2, some 4, none, []⟩, ⟨1, 7, 0, 2, some 8, none, []⟩],
    [⟨5, -1, 0, 1, some 0, none, []⟩]]]

theorem C91_two (gl gr : Graph) (hl : Built intCodec (some 9) ⟨0, 0, 9⟩ C91_left gl) (hr : Built intCodec (some 9) ⟨0, 0, 9⟩ C91_right gr) :
    TimedServers intCodec [(C91_left, (gl, 9)), (C91_right, (gr, 9))] [0] [(1, 5), (5, 5), (6, 5)] := by
  have all : ∀ {P : List (List (List Rec)) × (Graph × Int) → Prop}, P (C91_left, (gl, 9)) → P (C91_right, (gr, 9)) →
      ∀ x ∈ [(C91_left, (gl, 9)), (C91_right, (gr, 9))], P x := by
    intro P a b x hx
    rcases List.mem_cons.1 hx with rfl | hx
    · exact a
    · rcases List.mem_cons.1 hx with rfl | hx
      · exact b
      · simp at hx
  refine ⟨all ⟨_, _, rfl, by decide, hl⟩ ⟨_, _, rfl, by decide, hr⟩, ?_, by decide, ?_, ?_, ?_, ?_, ?_⟩
  · exact all (P := fun x => ∀ q ∈ [((1 : Int), (5 : Int)), (5, 5), (6, 5)], Spec.NoGap x.1 q.1 [0]) (by dsimp only; decide +kernel) (by dsimp only; decide +kernel)
  · exact all (P := fun x => ∀ q ∈ [((1 : Int), (5 : Int)), (5, 5), (6, 5)], OrderedLifetimes x.1 q.1) (by dsimp only; decide +kernel) (by dsimp only; decide +kernel)
  · refine all (P := fun x => ∀ q ∈ [((1 : Int), (5 : Int)), (5, 5), (6, 5)], C69_removals x.1 q.1) ?_ ?_
    · intro q _; exact C69_removals_of (parts := C91_left) (by decide +kernel)
    · intro q _; exact C69_removals_of (parts := C91_right) (by decide +kernel)
  · exact all (P := fun x => ∀ q ∈ [((1 : Int), (5 : Int)), (5, 5), (6, 5)], C69_weightsOk x.1 q.1 [0]) (by dsimp only; decide +kernel) (by dsimp only; decide +kernel)
  · exact all (C69_created_of (parts := C91_left) (by decide +kernel)) (C69_created_of (parts := C91_right) (by decide +kernel))
  · exact all (P := fun x => ∀ r ∈ allRecords x.1, r.removed ≠ some 0) (by dsimp only; decide +kernel) (by dsimp only; decide +kernel)

/-- At time 5 the samples of node 1 are the edge to 2, created at 2, and that to 3, created at 4, whatever is drawn and whichever
server is heard first; node 5 has no edges and gets the default with the placeholder; the row of the unknown node 6 is left as it was. -/
example (Ds : List (Nat → WDraws)) (hlen : Ds.length = 2) (hDs : ∀ E ∈ Ds, ∀ i, (E i).Ok) (D : WDraws) (hD : ∀ i, 0 < (D.real i).1)
    (order : List (WReply (Nbr × Int)) → List (Ev (WReply (Nbr × Int)))) (hord : ∀ rs, rs.length = 2 → Schedule rs (order rs)) :
    ∃ gl gr, Built intCodec (some 9) ⟨0, 0, 9⟩ C91_left gl ∧ Built intCodec (some 9) ⟨0, 0, 9⟩ C91_right gr ∧
    ∃ a b c, sampleServersTimes ([(gl, 9), (gr, 9)].zip Ds) D [0] 2 ⟨0, -1, 0⟩ [(1, some 5), (5, some 5), (6, some 5)]
        (List.replicate 3 [(⟨9, 9, 9⟩, 7), (⟨9, 9, 9⟩, 8)])
        order = some [a, b, c] ∧
      a.length = 2 ∧ (∀ z ∈ a, z = (⟨2, 0, 1⟩, 2) ∨ z = (⟨3, 0, 2⟩, 4)) ∧
      b = [(⟨0, -1, 0⟩, -1), (⟨0, -1, 0⟩, -1)] ∧ c = [(⟨9, 9, 9⟩, 7), (⟨9, 9, 9⟩, 8)] := by
  obtain ⟨gl, -, hl⟩ := built_of_check (wm := some 9) (m := ⟨0, 0, 9⟩) (parts := C91_left) (by decide +kernel)
  obtain ⟨gr, -, hr⟩ := built_of_check (wm := some 9) (m := ⟨0, 0, 9⟩) (parts := C91_right) (by decide +kernel)
  obtain ⟨outs, h1, h2, h3⟩ := C91_servers_weighted_partial _ _ _ (C91_two gl gr hl hr) Ds hlen hDs D hD 2 ⟨0, -1, 0⟩
    (List.replicate 3 [(⟨9, 9, 9⟩, 7), (⟨9, 9, 9⟩, 8)]) rfl (by decide) (by
      intro q hq
      have : C91_weight [(C91_left, (gl, 9)), (C91_right, (gr, 9))] [0] q =
        (([C91_left, C91_right].map fun x => ((liveSlots x q.1 q.2 [0]).map (·.weight)).sum)).sum := rfl
      rw [this]
      clear this
      revert q
      decide +kernel)
    order hord
  match outs, h2, h3 with
  | [a, b, c], _, h3 =>
    refine ⟨gl, gr, hl, hr, a, b, c, h1, ?_⟩
    obtain ⟨a1, a2, -⟩ := h3 0 (1, 5) a rfl rfl
    obtain ⟨-, -, b2, -⟩ := h3 1 (5, 5) b rfl rfl
    obtain ⟨-, -, -, c2⟩ := h3 2 (6, 5) c rfl rfl
    refine ⟨a1, ?_, ?_, ?_⟩
    · intro z hz
      obtain ⟨x, hx, hzx⟩ := a2 (show 0 < (([C91_left, C91_right].map fun x => ((liveSlots x 1 5 [0]).map (·.weight)).sum)).sum by
        decide +kernel) z hz
      rcases List.mem_cons.1 hx with rfl | hx
      · left
        rw [show (liveSlots C91_left 1 5 [0]).map withTime = [(⟨2, 0, 1⟩, 2)] by decide +kernel] at hzx
        simpa using hzx
      · rcases List.mem_cons.1 hx with rfl | hx
        · right
          rw [show (liveSlots C91_right 1 5 [0]).map withTime = [(⟨3, 0, 2⟩, 4)] by decide +kernel] at hzx
          simpa using hzx
        · simp at hx
    · exact b2 (show (([C91_left, C91_right].map fun x => ((liveSlots x 5 5 [0]).map (·.weight)).sum)).sum = 0 by decide +kernel)
        ⟨(C91_right, (gr, 9)), by simp, by dsimp only; decide +kernel⟩
    · have := c2 (by
        intro x hx
        rcases List.mem_cons.1 hx with rfl | hx
        · dsimp only; decide +kernel
        · rcases List.mem_cons.1 hx with rfl | hx
          · dsimp only; decide +kernel
          · simp at hx)
      simpa using this.symm

/-- Without creation times: node 1 gets the edges of both servers that exist at time 5, node 5 the default. -/
example (Ds : List (Nat → WDraws)) (hlen : Ds.length = 2) (hDs : ∀ E ∈ Ds, ∀ i, (E i).Ok) (D : WDraws) (hD : ∀ i, 0 < (D.real i).1)
    (order : List WReply → List (Ev WReply)) (hord : ∀ rs, rs.length = 2 → Schedule rs (order rs)) :
    ∃ gl gr, Built intCodec (some 9) ⟨0, 0, 9⟩ C91_left gl ∧ Built intCodec (some 9) ⟨0, 0, 9⟩ C91_right gr ∧
    ∃ a b c, sampleServersAt ([gl, gr].zip Ds) D [0] 2 ⟨0, -1, 0⟩ [(1, some 5), (5, some 5), (6, some 5)]
        (List.replicate 3 [⟨9, 9, 9⟩, ⟨9, 9, 9⟩]) order = some [a, b, c] ∧
      a.length = 2 ∧ (∀ z ∈ a, z = ⟨2, 0, 1⟩ ∨ z = ⟨3, 0, 2⟩) ∧ b = [⟨0, -1, 0⟩, ⟨0, -1, 0⟩] := by
  obtain ⟨gl, -, hl⟩ := built_of_check (wm := some 9) (m := ⟨0, 0, 9⟩) (parts := C91_left) (by decide +kernel)
  obtain ⟨gr, -, hr⟩ := built_of_check (wm := some 9) (m := ⟨0, 0, 9⟩) (parts := C91_right) (by decide +kernel)
  obtain ⟨outs, h1, h2, h3⟩ := C69_servers_partial _ _ _ (C91_two gl gr hl hr) Ds hlen hDs D hD 2 ⟨0, -1, 0⟩
    (List.replicate 3 [⟨9, 9, 9⟩, ⟨9, 9, 9⟩]) rfl (by decide) (by
      intro q hq
      have : ([(C91_left, (gl, (9 : Int))), (C91_right, (gr, 9))].map fun x => ((neighborsAt x.1 q.1 q.2 [0]).map (·.weight)).sum).sum =
        (([C91_left, C91_right].map fun x => ((neighborsAt x q.1 q.2 [0]).map (·.weight)).sum)).sum := rfl
      rw [this]
      clear this
      revert q
      decide +kernel) order hord
  match outs, h2, h3 with
  | [a, b, c], _, h3 =>
    refine ⟨gl, gr, hl, hr, a, b, c, h1, ?_⟩
    obtain ⟨a1, a2, -⟩ := h3 0 (1, 5) a rfl rfl
    obtain ⟨-, -, b2, -⟩ := h3 1 (5, 5) b rfl rfl
    refine ⟨a1, ?_, ?_⟩
    · intro z hz
      obtain ⟨x, hx, hzx⟩ := a2 (show 0 < (([C91_left, C91_right].map fun x => ((neighborsAt x 1 5 [0]).map (·.weight)).sum)).sum by
        decide +kernel) z hz
      rcases List.mem_cons.1 hx with rfl | hx
      · left
        rw [show neighborsAt C91_left 1 5 [0] = [⟨2, 0, 1⟩] by decide +kernel] at hzx
        simpa using hzx
      · rcases List.mem_cons.1 hx with rfl | hx
        · right
          rw [show neighborsAt C91_right 1 5 [0] = [⟨3, 0, 2⟩] by decide +kernel] at hzx
          simpa using hzx
        · simp at hx
    · exact b2 (show (([C91_left, C91_right].map fun x => ((neighborsAt x 5 5 [0]).map (·.weight)).sum)).sum = 0 by decide +kernel)
        ⟨(C91_right, (gr, 9)), by simp, by dsimp only; decide +kernel⟩

/-- The same servers asked without timestamps: only placeholders, although all edges have creation times. -/
example (Ds : List (Nat → WDraws)) (hlen : Ds.length = 2) (hDs : ∀ E ∈ Ds, ∀ i, (E i).Ok) (D : WDraws) (hD : ∀ i, 0 < (D.real i).1)
    (order : List (WReply (Nbr × Int)) → List (Ev (WReply (Nbr × Int)))) (hord : ∀ rs, rs.length = 2 → Schedule rs (order rs)) :
    ∃ gl gr, Built intCodec (some 9) ⟨0, 0, 9⟩ C91_left gl ∧ Built intCodec (some 9) ⟨0, 0, 9⟩ C91_right gr ∧
    ∃ a, sampleServersTimes ([(gl, 9), (gr, 9)].zip Ds) D [0] 2 ⟨0, -1, 0⟩ [(1, none)] [[(⟨9, 9, 9⟩, 7), (⟨9, 9, 9⟩, 8)]] order =
      some [a] ∧ ∀ z ∈ a, z.2 = -1 := by
  obtain ⟨gl, -, hl⟩ := built_of_check (wm := some 9) (m := ⟨0, 0, 9⟩) (parts := C91_left) (by decide +kernel)
  obtain ⟨gr, -, hr⟩ := built_of_check (wm := some 9) (m := ⟨0, 0, 9⟩) (parts := C91_right) (by decide +kernel)
  have all : ∀ {P : List (List (List Rec)) × (Graph × Int) → Prop}, P (C91_left, (gl, 9)) → P (C91_right, (gr, 9)) →
      ∀ x ∈ [(C91_left, (gl, 9)), (C91_right, (gr, 9))], P x := by
    intro P a b x hx
    rcases List.mem_cons.1 hx with rfl | hx
    · exact a
    · rcases List.mem_cons.1 hx with rfl | hx
      · exact b
      · simp at hx
  obtain ⟨outs, h1, h2, h3⟩ := C91_servers_weighted_untimed_refuted (C := intCodec) [(C91_left, (gl, 9)), (C91_right, (gr, 9))]
    (all ⟨_, _, hl⟩ ⟨_, _, hr⟩) Ds hlen hDs D hD [0] 2 ⟨0, -1, 0⟩ [1] [[(⟨9, 9, 9⟩, 7), (⟨9, 9, 9⟩, 8)]] rfl (by decide)
    (all (by dsimp only; decide +kernel) (by dsimp only; decide +kernel))
    (all (by dsimp only [C19_weightsOk]; decide +kernel) (by dsimp only [C19_weightsOk]; decide +kernel)) (by
      intro n hn
      have : ([(C91_left, (gl, (9 : Int))), (C91_right, (gr, 9))].map fun x => ((neighbors x.1 n [0]).map (·.weight)).sum).sum =
        (([C91_left, C91_right].map fun x => ((neighbors x n [0]).map (·.weight)).sum)).sum := rfl
      rw [this]
      clear this
      revert n
      decide +kernel) order hord
  match outs, h2, h3 with
  | [a], _, h3 =>
    exact ⟨gl, gr, hl, hr, a, h1, h3 0 1 a rfl rfl ⟨(C91_left, (gl, 9)), by simp, by dsimp only; decide +kernel⟩⟩

end DeepGNN
