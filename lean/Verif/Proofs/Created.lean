import Verif.Proofs.Sampling
import Verif.Proofs.Remote
import Verif.Proofs.LastN
import Verif.Spec.Created

namespace DeepGNN

variable {C : WeightCodec} {m : Meta} {p : Partition} {k : Nat} {edges : List GEdge} {xs : List ((Int × List PEdge) × Nat)}
  {g : Graph} {items : List Item} {parts : List (List (List Rec))}

/-! Full neighbours -/

theorem NodeTables.groupCreatedAt (h : NodeTables m p k edges xs) (hwm : 0 ≤ m.watermark)
    {x : (Int × List PEdge) × Nat} (hx : x ∈ xs) (ts : Int) :
    p.groupCreatedAt ts (toGroup x) =
      some (((seenRun (x.1.2.map (·.1))).filter (liveB ts)).map (·.created)) := by
  simp only [Partition.groupCreatedAt, toGroup, Nat.add_sub_cancel_left]
  have hl : x.1.2.length = (seenRun (x.1.2.map (·.1))).length := by simp [seenRun]
  rw [hl]
  rw [mapM_range' _ (fun e : GEdge => if liveB ts e then [e.created] else []) (seenRun (x.1.2.map (·.1)))]
  · simp only [Option.bind_eq_bind, Option.bind_some, pure, Option.some.injEq]
    generalize seenRun (x.1.2.map (·.1)) = l
    induction l with
    | nil => rfl
    | cons e es ih =>
      simp only [List.map_cons, List.flatten_cons, List.filter_cons, ih]
      split <;> simp
  · intro i hi
    have hi' : i < x.1.2.length := by omega
    rw [h.ts hwm x hx i hi']
    simp only [Option.bind_eq_bind, Option.bind_some, liveB, decide_eq_true_eq, seenRun,
      List.getElem_map, List.getElem_zipIdx, Nat.zero_add, pure]

theorem NodeTables.fullCreatedAt (h : NodeTables m p k edges xs) (hwm : 0 ≤ m.watermark) (types : List Int) (ts : Int) :
    p.fullCreated k (some ts) types = some (((walkSeen edges types).filter (liveB ts)).map (·.created)) := by
  simp only [Partition.fullCreated, h.groups, Option.bind_eq_bind, Option.bind_some, walk_toGroup]
  rw [List.mapM_map, mapM_some_map _ (fun x => ((seenRun (x.1.2.map (·.1))).filter (liveB ts)).map (·.created))]
  · simp only [Option.bind_some, pure, Option.some.injEq, ← h.visited_seen types]
    simp [List.flatMap, List.map_flatten, Function.comp_def, List.filter_flatten]
  · intro x hx
    exact h.groupCreatedAt hwm (mem_visited hx) ts

theorem NodeTables.fullCreated (h : NodeTables m p k edges xs) (types : List Int) :
    p.fullCreated k none types = some ((walkSeen edges types).map fun _ => noTime) := by
  simp only [Partition.fullCreated, h.groups, Option.bind_eq_bind, Option.bind_some, walk_toGroup, pure, Option.some.injEq,
    ← h.visited_seen types, List.map_flatMap]
  rw [List.flatMap_def, List.map_map]
  congr 1
  apply List.map_congr_left
  intro x hx
  simp only [Function.comp, toGroup, Nat.add_sub_cancel_left]
  apply List.ext_getElem <;> simp [seenRun]

theorem flatten_blocks {α} (items : List Item) (F : Item → List Blk) (f : Blk → List α) :
    (items.flatMap fun it => (F it).map f).flatten = items.flatMap fun it => (F it).flatMap f := by
  induction items with
  | nil => rfl
  | cons it items ih => rw [List.flatMap_cons, List.flatMap_cons, List.flatten_append, ih, ← List.flatMap_def]

theorem GraphOk.fullCreatedAt1 (h : GraphOk C m g items parts) (hwm : 0 ≤ m.watermark) (n ts : Int) (types : List Int) :
    g.fullCreated1 (some ts) types n = some (((foundSeen items n types).filter (liveB ts)).map (·.created)) := by
  obtain ⟨es, h1, h2⟩ := h.mapEntries n (fun x => x.1.fullCreated x.2 (some ts) types)
    (fun b => ((walkSeen b.edges types).filter (liveB ts)).map (·.created)) (by
      intro it hit x hx _
      obtain ⟨xs, ht⟩ := (h.ok it hit).tables hx
      exact ht.fullCreatedAt hwm types ts)
  simp only [Graph.fullCreated1, h1, Option.bind_eq_bind, Option.bind_some]
  have h2' : es.mapM (fun (x : Partition × Nat) =>
      match x with | (p, id) => p.fullCreated id (some ts) types) = _ := h2
  rw [h2']
  simp only [Option.bind_some, pure, Option.some.injEq, foundSeen, List.filter_flatMap, List.map_flatMap, flatten_blocks]

theorem GraphOk.fullCreated1 (h : GraphOk C m g items parts) (n : Int) (types : List Int) :
    g.fullCreated1 none types n = some ((foundSeen items n types).map fun _ => noTime) := by
  obtain ⟨es, h1, h2⟩ := h.mapEntries n (fun x => x.1.fullCreated x.2 none types)
    (fun b => (walkSeen b.edges types).map fun _ => noTime) (by
      intro it hit x hx _
      obtain ⟨xs, ht⟩ := (h.ok it hit).tables hx
      exact ht.fullCreated types)
  simp only [Graph.fullCreated1, h1, Option.bind_eq_bind, Option.bind_some]
  have h2' : es.mapM (fun (x : Partition × Nat) =>
      match x with | (p, id) => p.fullCreated id none types) = _ := h2
  rw [h2']
  simp only [Option.bind_some, pure, Option.some.injEq, foundSeen, List.map_flatMap, flatten_blocks]

/-- The live edges of the input. -/
theorem inputEdges_liveSlots (parts : List (List (List Rec))) (n t : Int) (types : List Int)
    (hacc : ∀ c ∈ parts.flatten, AccOk 0 c)
    (hc : ∀ r ∈ Spec.allRecords parts, ∀ c, r.created = some c → 0 ≤ c)
    (hr : ∀ r ∈ Spec.allRecords parts, r.removed ≠ some 0) :
    ((inputEdges parts n types).filter (liveB t)).map gslot = Spec.liveSlots parts n t types := by
  simp only [inputEdges, Spec.liveSlots, Spec.allTimedEdges]
  simp only [Spec.allRecords] at hc hr
  generalize parts.flatten = calls at *
  have key := timed_calls calls hacc hc hr
  rw [key]
  generalize calls.flatMap (effEdges 0 (-1)) = L
  rw [List.filter_map, List.filter_map, List.filter_filter, List.map_map, List.map_map]
  have : (fun a : Int × GEdge => (liveB t ∘ fun x => x.snd) a && decide (a.fst = n ∧ a.snd.typ ∈ types)) =
      ((fun e : Spec.TimedEdge => decide (e.src = n ∧ e.typ ∈ types ∧ e.aliveAt t = true)) ∘ toTimed) := by
    funext a
    have h1 := toTimed_alive a t
    simp only [Function.comp, h1]
    simp only [toTimed]
    cases liveB t a.2 <;> simp
  rw [this]
  rfl

/-! Uniform samples -/

/-- Destination, type and creation time. -/
def edgeTime (e : GEdge) : (Int × Int) × Int := ((e.dst, e.typ), e.created)

theorem NodeTables.timedSpan (h : NodeTables m p k edges xs) (hwm : 0 ≤ m.watermark) {x : (Int × List PEdge) × Nat} (hx : x ∈ xs)
    (a n : Nat) (hle : a + n ≤ x.1.2.length) :
    p.timedSpan (x.2 + a) n = some (((x.1.2.drop a).take n).map fun e => (e.1.dst, e.1.created)) := by
  have hl : ((x.1.2.drop a).take n).length = n := by rw [List.length_take, List.length_drop]; omega
  simp only [Partition.timedSpan]
  conv => lhs; rw [← hl]
  apply mapM_range'
  intro i hi
  rw [hl] at hi
  have h1 := h.dst x hx (a + i) (by omega)
  have h2 := h.ts hwm x hx (a + i) (by omega)
  rw [List.getElem_take, List.getElem_drop, Nat.add_assoc, h1, h2]
  rfl

theorem NodeTables.timedBlocks (h : NodeTables m p k edges xs) (hwm : 0 ≤ m.watermark) (hs : EdgesTimesSorted edges) (w : Bool)
    (hw : w = true → ∀ e ∈ edges, e.removed = -1) (ts : Int) (hts : -(2 ^ 31) ≤ ts ∧ ts < 2 ^ 31) (types : List Int) :
    ∃ bs, p.timedBlocks w k ts types = some bs ∧
      bs.flatten = ((walkEdges edges types).filter (liveB ts)).map edgeTime := by
  simp only [Partition.timedBlocks, h.groups, Option.bind_eq_bind, Option.bind_some, sampleGroups_walk,
    walk_toGroup, List.map_map]
  obtain ⟨bs, h1, h2⟩ := mapM_flat
    (fun x : (Int × List PEdge) × Nat => (p.pieces w (some ts) (toGroup x)).bind fun ps =>
      ps.mapM fun y => (p.timedSpan y.1 y.2).map fun l => l.map fun d => ((d.1, x.1.1), d.2))
    (fun bs => bs.flatten) (fun x => (x.1.2.filter fun e => liveB ts e.1).map fun e => edgeTime e.1)
    (visited xs types) (by
      intro x hx
      have hxm := mem_visited hx
      obtain ⟨ps, h1, h2, h3⟩ := h.piecesAt hwm hs w hw ts hts x hxm
      rw [h1, Option.bind_some, List.mapM_map]
      obtain ⟨bs, h4, h5⟩ := mapM_flat
        (fun y : Nat × Nat => (p.timedSpan (x.2 + y.1) y.2).map fun l => l.map fun d => ((d.1, x.1.1), d.2))
        (fun b => b) (fun y => ((x.1.2.drop y.1).take y.2).map fun e => edgeTime e.1) ps (by
          intro y hy
          refine ⟨_, by rw [h.timedSpan hwm hxm y.1 y.2 (h2 y hy)]; rfl, ?_⟩
          refine (List.map_map).trans ?_
          apply List.map_congr_left
          intro e he
          have := (h.typ_of_mem hxm).2 e (List.mem_of_mem_drop (List.mem_of_mem_take he))
          simp [edgeTime, this])
      refine ⟨bs, ?_, ?_⟩
      · exact h4
      · rw [← h3, List.map_flatMap, ← h5]; simp)
  refine ⟨bs.flatten, ?_, ?_⟩
  · rw [List.mapM_map]
    have : ∀ x : (Int × List PEdge) × Nat, ((fun x : Group × Int => match x with
        | (g, e) => (p.pieces w (some ts) g).bind fun ps => ps.mapM fun x => (p.timedSpan x.1 x.2).map fun l =>
            l.map fun d => ((d.1, if w = true then e else g.typ), d.2)) ∘ (fun g : Group => (g, g.typ)) ∘ toGroup) x =
        (p.pieces w (some ts) (toGroup x)).bind fun ps =>
      ps.mapM fun y => (p.timedSpan y.1 y.2).map fun l => l.map fun d => ((d.1, x.1.1), d.2) := by
      intro x
      simp [Function.comp, toGroup]
    rw [show (_ : (Int × List PEdge) × Nat → Option (List (List ((Int × Int) × Int)))) = _ from funext this, h1]
    rfl
  · have h4 : bs.flatten.flatten = bs.flatMap fun bs => bs.flatten := by
      rw [List.flatMap_def, ← List.flatten_flatten]
    rw [h4, h2, ← h.visited_edges types, List.filter_map, List.map_map, List.filter_flatMap, List.map_flatMap]
    rfl

theorem GraphOk.timedBlocks (h : GraphOk C m g items parts) (hwm : 0 ≤ m.watermark) (n : Int) (w : Bool)
    (ts : Int) (hts : -(2 ^ 31) ≤ ts ∧ ts < 2 ^ 31) (types : List Int)
    (hs : ∀ it ∈ items, ∀ b ∈ it.blks, b.id = n → EdgesTimesSorted b.edges)
    (hw : w = true → ∀ it ∈ items, ∀ b ∈ it.blks, b.id = n → ∀ e ∈ b.edges, e.removed = -1) :
    ∃ es bs, g.entries n = some es ∧
      es.mapM (fun x : Partition × Nat => x.1.timedBlocks w x.2 ts types) = some bs ∧
      bs.flatten.flatten = ((foundEdges items n types).filter (liveB ts)).map edgeTime := by
  obtain ⟨es, bs, h1, h2, h3⟩ := h.mapEntries_flat n (fun x => x.1.timedBlocks w x.2 ts types)
    (fun b => b.flatten) (fun b => ((walkEdges b.edges types).filter (liveB ts)).map edgeTime) (by
      intro it hit x hx hxn
      obtain ⟨xs, ht⟩ := (h.ok it hit).tables hx
      have hmem : x.1 ∈ it.blks := (List.mem_zipIdx_iff_getElem?.1 hx) |> List.mem_of_getElem?
      exact ht.timedBlocks hwm (hs it hit x.1 hmem hxn) w (fun hw' => hw hw' it hit x.1 hmem hxn) ts hts types)
  refine ⟨es, bs, h1, h2, ?_⟩
  rw [List.flatMap_def, ← List.flatten_flatten] at h3
  rw [h3, foundEdges, List.filter_flatMap, List.map_flatMap]
  simp only [List.filter_flatMap, List.map_flatMap]

theorem createdWithout_of_blocks (R : Draws) (ts : Int) (types : List Int) (default : Int × Int) (n : Int)
    (out : List ((Int × Int) × Int)) (hout : 0 < out.length) (s : Nat) {es : List (Partition × Nat)}
    {bs : List (List (List ((Int × Int) × Int)))} (h1 : g.entries n = some es)
    (h2 : es.mapM (fun x : Partition × Nat => x.1.timedBlocks true x.2 ts (sortUnique types)) = some bs) :
    (bs.flatten.flatten.length ≤ out.length → ∃ out' s', g.createdWithout1 R ts types out.length default n out s = some (out', s') ∧
      Spec.Selection bs.flatten.flatten (List.replicate out.length (default, noTime)) out') ∧
    (out.length < bs.flatten.flatten.length → g.createdWithout1 R ts types out.length default n out s = none) := by
  obtain ⟨o, a, s', h3, h4, h5⟩ := AlgL.run_selection R bs.flatten out hout s
  simp only [Graph.createdWithout1, h1, Option.bind_eq_bind, Option.bind_some]
  have h2' : es.mapM (fun (x : Partition × Nat) =>
      match x with | (p, id) => p.timedBlocks true id ts (sortUnique types)) = _ := h2
  rw [h2', Option.bind_some]
  simp only [AlgL.run] at h3
  rw [h3]
  simp only [Option.bind_some, length_flatten2]
  refine ⟨fun hle => ?_, fun hlt => by rw [if_pos hlt]⟩
  rw [if_neg (by omega)]
  refine ⟨_, s', rfl, ?_⟩
  obtain ⟨chosen, ps, e1, e2, e3, e4⟩ := h5
  refine ⟨chosen, ps, ?_, by simpa using e2, e3, e4⟩
  have hcl : chosen.length = bs.flatten.flatten.length := by omega
  rw [e1, ← hcl, List.take_left, List.drop_replicate, ← e1, h4]

theorem createdWith_of_blocks (R : Draws) (ts : Int) (types : List Int) (default : Int × Int) (n : Int)
    (out : List ((Int × Int) × Int)) (s : Nat) {es : List (Partition × Nat)}
    {bs : List (List (List ((Int × Int) × Int)))} (h1 : g.entries n = some es)
    (h2 : es.mapM (fun x : Partition × Nat => x.1.timedBlocks false x.2 ts (sortUnique types)) = some bs) :
    ∃ out' s', g.createdWith1 R ts types out.length default n out s = some (out', s') ∧
      out'.length = out.length ∧
      (bs.flatten.flatten = [] → out' = List.replicate out.length (default, noTime)) ∧
      (bs.flatten.flatten ≠ [] → ∀ x ∈ out', x ∈ bs.flatten.flatten) := by
  obtain ⟨o, a, s', h3, h4⟩ := withReplacement_run R out.length bs.flatten (all := []) (out0 := out)
    ⟨rfl, rfl, fun _ => rfl, by simp⟩ s
  rw [List.nil_append] at h4
  simp only [Graph.createdWith1, h1, Option.bind_eq_bind, Option.bind_some]
  have h2' : es.mapM (fun (x : Partition × Nat) =>
      match x with | (p, id) => p.timedBlocks false id ts (sortUnique types)) = _ := h2
  rw [h2', Option.bind_some]
  rw [show List.foldlM (fun st (xs : List ((Int × Int) × Int)) => withReplacementAdd R (store xs) out.length xs.length st)
    (out, 0, s) bs.flatten = _ from h3]
  simp only [Option.bind_some, length_flatten2]
  by_cases hne : bs.flatten.flatten = []
  · refine ⟨List.replicate out.length (default, noTime), s', ?_, by simp, fun _ => rfl, fun h => absurd hne h⟩
    rw [hne]
    simp only [List.length_nil, gt_iff_lt, Nat.lt_irrefl, if_false, Option.pure_def, List.take_zero,
      List.nil_append, Nat.sub_zero, h4.len]
  · refine ⟨o, s', ?_, h4.len, fun h => absurd h hne, h4.mem⟩
    rw [if_pos (List.length_pos_iff.2 hne)]; rfl

/-! The samples are those of a call without creation times. -/

theorem AlgL.fill_map {σ τ} (f : σ → τ) (up : σ → Nat → Nat → Option σ) (up' : τ → Nat → Nat → Option τ)
    (hup : ∀ o i j, up' (f o) i j = (up o i j).map f) (n i : Nat) (a : AlgL) (o : σ) :
    AlgL.fill up' n i a (f o) = (AlgL.fill up n i a o).map fun x => (f x.1, x.2) := by
  fun_induction AlgL.fill up n i a o with
  | case1 i a o h ih =>
    rw [AlgL.fill, if_pos h, hup]
    cases hu : up o a.seen i with
    | none => rfl
    | some o' => simpa using ih o'
  | case2 i a o h => rw [AlgL.fill, if_neg h]; rfl

theorem AlgL.loop_map {σ τ} (R : Draws) (f : σ → τ) (up : σ → Nat → Nat → Option σ) (up' : τ → Nat → Nat → Option τ)
    (hup : ∀ o i j, up' (f o) i j = (up o i j).map f) (k n i next : Nat) (seen left : Int) (s : Nat) (o : σ) :
    AlgL.loop R up' k n i next seen left s (f o) = (AlgL.loop R up k n i next seen left s o).map fun x => (f x.1, x.2) := by
  fun_induction AlgL.loop R up k n i next seen left s o with
  | case1 next seen left s o h ro nl sn lf ih =>
    rw [AlgL.loop, if_pos h]
    dsimp only
    rw [hup]
    cases hu : up o (R s % k) (seen + left - next + i).toNat with
    | none => rfl
    | some o' => exact ih o'
  | case2 next seen left s o h => rw [AlgL.loop, if_neg h]; rfl

theorem AlgL.add_map {σ τ} (R : Draws) (f : σ → τ) (up : σ → Nat → Nat → Option σ) (up' : τ → Nat → Nat → Option τ)
    (hup : ∀ o i j, up' (f o) i j = (up o i j).map f) (n : Nat) (st : σ × AlgL × Nat) :
    AlgL.add R up' n (f st.1, st.2) = (AlgL.add R up n st).map fun x => (f x.1, x.2) := by
  simp only [AlgL.add, AlgL.fill_map f up up' hup]
  cases AlgL.fill up n 0 st.2.1 st.1 with
  | none => rfl
  | some x =>
    obtain ⟨o, i, a⟩ := x
    simp only [Option.map_some, Option.bind_some]
    split
    · rfl
    · simp only [AlgL.loop_map R f up up' hup, Option.map_map]
      rfl

theorem withReplacementAdd_map {σ τ} (R : Draws) (f : σ → τ) (up : σ → Nat → Nat → Option σ) (up' : τ → Nat → Nat → Option τ)
    (hup : ∀ o i j, up' (f o) i j = (up o i j).map f) (k w : Nat) (st : σ × Nat × Nat) :
    withReplacementAdd R up' k w (f st.1, st.2) = (withReplacementAdd R up k w st).map fun x => (f x.1, x.2) := by
  simp only [withReplacementAdd]
  have key : ∀ (l : List Nat) (x : σ × Nat), l.foldlM (fun (x : τ × Nat) i =>
      if 0 < w ∧ (w = st.2.1 + w ∨ R x.2 % 2 = 0) then (up' x.1 i (R (x.2 + 1) % w)).map fun o => (o, x.2 + 2)
      else some (x.1, x.2 + 1)) (f x.1, x.2) = (l.foldlM (fun (x : σ × Nat) i =>
      if 0 < w ∧ (w = st.2.1 + w ∨ R x.2 % 2 = 0) then (up x.1 i (R (x.2 + 1) % w)).map fun o => (o, x.2 + 2)
      else some (x.1, x.2 + 1)) x).map fun y => (f y.1, y.2) := by
    intro l
    induction l with
    | nil => intro x; rfl
    | cons a l ih =>
      intro x
      rw [List.foldlM_cons, List.foldlM_cons]
      by_cases hc : 0 < w ∧ (w = st.2.1 + w ∨ R x.2 % 2 = 0)
      · rw [if_pos hc, if_pos hc, hup]
        cases up x.1 a (R (x.2 + 1) % w) with
        | none => rfl
        | some o => exact ih (o, x.2 + 2)
      · rw [if_neg hc, if_neg hc]
        exact ih (x.1, x.2 + 1)
  rw [key _ (st.1, st.2.2), Option.map_map, Option.map_map]
  rfl

theorem store_map {α β} (f : α → β) (xs : List α) (out : List α) (i j : Nat) :
    store (xs.map f) (out.map f) i j = (store xs out i j).map (List.map f) := by
  simp only [store, List.length_map, List.getElem?_map]
  split
  · cases xs[j]? with
    | none => rfl
    | some a => simp [List.map_set]
  · rfl

theorem foldlM_map_state {α β σ τ} (F : σ → τ) (G : α → β) (q : σ → α → Option σ) (q' : τ → β → Option τ)
    (h : ∀ s a, q' (F s) (G a) = (q s a).map F) (l : List α) (s : σ) :
    (l.map G).foldlM q' (F s) = (l.foldlM q s).map F := by
  induction l generalizing s with
  | nil => rfl
  | cons a l ih =>
    rw [List.map_cons, List.foldlM_cons, List.foldlM_cons, h]
    cases q s a with
    | none => rfl
    | some s' => exact ih s'

/-- What is offered at a timestamp, without the times. -/
theorem timedBlocks_erase {w : Bool} {id : Nat} {ts : Int} {types : List Int} {bs : List (List ((Int × Int) × Int))}
    (h : p.timedBlocks w id ts types = some bs) : p.sampleBlocks w id (some ts) types = some (bs.map (·.map (·.1))) := by
  simp only [Partition.timedBlocks, Partition.sampleBlocks] at h ⊢
  obtain ⟨gs, h1, h2⟩ := Option.bind_eq_some_iff.1 h
  obtain ⟨cs, h3, h4⟩ := Option.bind_eq_some_iff.1 h2
  obtain rfl : cs.flatten = bs := by simpa using h4
  rw [h1]
  have key : ∀ (l : List (Group × Int)) (cs : List (List (List ((Int × Int) × Int)))),
      l.mapM (fun (x : Group × Int) => match x with
        | (g, e) => (p.pieces w (some ts) g).bind fun ps => ps.mapM fun x => (p.timedSpan x.1 x.2).map fun l =>
            l.map fun d => ((d.1, if w then e else g.typ), d.2)) = some cs →
      l.mapM (fun (x : Group × Int) => match x with
        | (g, e) => (p.pieces w (some ts) g).bind fun ps => ps.mapM fun x => (p.dstSpan x.1 x.2).map fun l =>
            l.map fun d => (d, if w then e else g.typ)) = some (cs.map (·.map (·.map (·.1)))) := by
    intro l
    induction l with
    | nil => intro cs h; obtain rfl : [] = cs := by simpa using h
             rfl
    | cons a l ih =>
      intro cs h
      rw [List.mapM_cons] at h ⊢
      obtain ⟨c, h5, h6⟩ := Option.bind_eq_some_iff.1 h
      obtain ⟨cs', h7, h8⟩ := Option.bind_eq_some_iff.1 h6
      obtain rfl : c :: cs' = cs := by simpa using h8
      rw [ih cs' h7]
      obtain ⟨ps, h9, h10⟩ := Option.bind_eq_some_iff.1 h5
      have : ps.mapM (fun x => (p.dstSpan x.1 x.2).map fun l => l.map fun d => (d, if w then a.2 else a.1.typ)) =
          some (c.map (·.map (·.1))) := by
        clear h h6 h5 h9
        induction ps generalizing c with
        | nil => obtain rfl : [] = c := by simpa using h10
                 rfl
        | cons y ps ihp =>
          rw [List.mapM_cons] at h10 ⊢
          obtain ⟨d, h11, h12⟩ := Option.bind_eq_some_iff.1 h10
          obtain ⟨d', h13, h14⟩ := Option.bind_eq_some_iff.1 h12
          obtain rfl : d :: d' = c := by simpa using h14
          rw [ihp d' (by simpa using h14) h13]
          obtain ⟨l', h15, rfl⟩ := Option.map_eq_some_iff.1 h11
          have hd : p.dstSpan y.1 y.2 = some (l'.map (·.1)) := by
            simp only [Partition.timedSpan, Partition.dstSpan] at h15 ⊢
            generalize List.range' y.1 y.2 = js at h15 ⊢
            clear h10 h12 h13 h14 ihp h11 h8
            induction js generalizing l' with
            | nil => obtain rfl : [] = l' := by simpa using h15
                     rfl
            | cons j js ihj =>
              rw [List.mapM_cons] at h15 ⊢
              obtain ⟨u, h16, h17⟩ := Option.bind_eq_some_iff.1 h15
              obtain ⟨u', h18, h19⟩ := Option.bind_eq_some_iff.1 h17
              obtain rfl : u :: u' = l' := by simpa using h19
              rw [ihj u' h18]
              obtain ⟨v, h20, h21⟩ := Option.bind_eq_some_iff.1 h16
              obtain ⟨t, -, rfl⟩ := Option.map_eq_some_iff.1 h21
              rw [h20]
              rfl
          rw [hd]
          simp [Function.comp_def]
      simp only [h9, Option.bind_some, this]
      rfl
  have := key _ _ h3
  simp only [Option.bind_eq_bind, Option.bind_some] at this ⊢
  rw [this]
  simp [List.map_flatten]

/-! Merging replies -/

/-- A reply whose first `k` nodes have been read. -/
def readTimed (k : Nat) (l : List (List (Nbr × Int))) : TimedReply × Nat := (Spec.timedReply l, (l.take k).flatten.length)

theorem mergeTimed_eq (k : Nat) (l : List (List (Nbr × Int))) :
    mergeTimed k (readTimed k l) = some (readTimed (k + 1) l, l.getD k []) := by
  by_cases hk : k < l.length
  · have h1 : l.take (k + 1) = l.take k ++ [l[k]] := by rw [List.take_succ_eq_append_getElem hk]
    have h2 : l.flatten = (l.take k).flatten ++ (l[k] ++ (l.drop (k + 1)).flatten) := by
      rw [← List.flatten_cons, ← List.flatten_append, List.getElem_cons_drop, List.take_append_drop]
    have h3 : l.getD k [] = l[k] := by simp [hk]
    have h4 : (readTimed (k + 1) l).2 = (readTimed k l).2 + l[k].length := by
      simp only [readTimed, h1, List.flatten_append, List.length_append, List.flatten_cons, List.flatten_nil,
        List.append_nil]
    have h5 : (readTimed k l).1.counts[k]? = some l[k].length := by simp [readTimed, Spec.timedReply, hk]
    rw [mergeTimed, h5, h3]
    cases hc : l[k].length with
    | zero =>
      have : l[k] = [] := List.length_eq_zero_iff.1 hc
      simp only [this]
      rw [hc] at h4
      congr 1
      exact Prod.ext (Prod.ext rfl (by simpa using h4.symm)) rfl
    | succ c =>
      simp only []
      have h6 : (readTimed k l).1.nbrs = (l.take k).flatten.map (·.1) ++ (l[k].map (·.1) ++ (l.drop (k + 1)).flatten.map (·.1)) := by
        rw [← List.map_append, ← List.map_append, ← h2]; rfl
      have h6' : (readTimed k l).1.times = (l.take k).flatten.map (·.2) ++ (l[k].map (·.2) ++ (l.drop (k + 1)).flatten.map (·.2)) := by
        rw [← List.map_append, ← List.map_append, ← h2]; rfl
      have h7 : (readTimed k l).2 = (l.take k).flatten.length := rfl
      rw [h6, h6', if_pos (by simp only [List.length_append, List.length_map, h7]; omega), h7,
        List.drop_left' (List.length_map ..), List.drop_left' (List.length_map ..), ← hc, List.take_left' (by simp), List.take_left' (by simp)]
      congr 1
      refine Prod.ext (Prod.ext rfl (by rw [h4]; rfl)) ?_
      have hz : ∀ a : List (Nbr × Int), (a.map (·.1)).zip (a.map (·.2)) = a := by
        intro a; induction a with
        | nil => rfl
        | cons b a ih => simp [ih]
      exact hz _
  · have h5 : (readTimed k l).1.counts[k]? = none := by simp [readTimed, Spec.timedReply]; omega
    rw [mergeTimed, h5]
    simp only [readTimed]
    rw [List.take_of_length_le (by omega), List.take_of_length_le (by omega)]
    simp [List.getElem?_eq_none_iff.2 (Nat.le_of_not_lt hk)]

theorem mergeTimedNode_eq (k : Nat) (ls : List (List (List (Nbr × Int)))) :
    mergeTimedNode k (ls.map (readTimed k)) =
      some (ls.map (readTimed (k + 1)), ls.flatMap (fun l => l.getD k []), (ls.flatMap fun l => l.getD k []).length) := by
  induction ls with
  | nil => rfl
  | cons l ls ih =>
    rw [List.map_cons, mergeTimedNode, mergeTimed_eq, Option.bind_some, ih]
    simp

theorem mergeTimedNodes_eq (n k : Nat) (ls : List (List (List (Nbr × Int)))) :
    mergeTimedNodes k n (ls.map (readTimed k)) =
      some ((List.range' k n).flatMap fun i => ls.flatMap fun l => l.getD i [],
        (List.range' k n).map fun i => (ls.flatMap fun l => l.getD i []).length) := by
  induction n generalizing k with
  | zero => rfl
  | succ n ih =>
    rw [mergeTimedNodes, mergeTimedNode_eq, Option.bind_some, ih]
    simp [List.range'_succ]

end DeepGNN
