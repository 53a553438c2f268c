import Verif.Proofs.RemoteWeighted

/-
C26 Remotely sampled neighbours go to the node that asked for them.
-/

namespace DeepGNN

open Spec

theorem rowUpdate_take {α : Type} {count w : Nat} {row : List α} (h : row.length = count) (o : List α) (p q : Nat)
    (o' : List α) (hs : store (row.take (min w count)) o p q = some o') : rowUpdate count row o p q = some o' := by
  simp only [store, rowUpdate] at hs ⊢
  cases hq : (row.take (min w count))[q]? with
  | none => rw [hq] at hs; simp at hs
  | some v =>
    rw [hq] at hs
    have hlt : q < min w count := by
      have := (List.getElem?_eq_some_iff.1 hq).1
      rw [List.length_take] at this
      omega
    rw [List.getElem?_take, if_pos hlt] at hq
    rw [Nat.mod_eq_of_lt (by omega), hq]
    simpa using hs

theorem rowUpdate_virtual {α : Type} {count w : Nat} {row : List α} {d : α} (h : row.length = count) (hc : 0 < count)
    (o : List α) (p q : Nat) (o' : List α)
    (hs : store ((List.range w).map fun i => row.getD (i % count) d) o p q = some o') : rowUpdate count row o p q = some o' := by
  simp only [store, rowUpdate] at hs ⊢
  cases hq : ((List.range w).map fun i => row.getD (i % count) d)[q]? with
  | none => rw [hq] at hs; simp at hs
  | some v =>
    rw [hq] at hs
    have hlt : q < w := by
      have := (List.getElem?_eq_some_iff.1 hq).1
      simpa using this
    rw [List.getElem?_map, List.getElem?_range hlt] at hq
    have hm : q % count < row.length := by rw [h]; exact Nat.mod_lt _ hc
    rw [List.getElem?_eq_getElem hm]
    simp only [Option.map_some, Option.some.injEq, List.getD_eq_getElem?_getD, List.getElem?_eq_getElem hm,
      Option.getD_some] at hq
    rw [hq]
    simpa using hs

theorem foldlM_mono_mem {σ β γ : Type} {f : σ → β → Option σ} {f' : σ → γ → Option σ} (conv : γ → β) (l : List γ)
    (h : ∀ x ∈ l, ∀ o o', f o (conv x) = some o' → f' o x = some o') (o o' : σ)
    (hr : (l.map conv).foldlM f o = some o') : l.foldlM f' o = some o' := by
  induction l generalizing o with
  | nil => exact hr
  | cons x l ih =>
    rw [List.map_cons, List.foldlM_cons] at hr
    rw [List.foldlM_cons]
    obtain ⟨o1, h1, h2⟩ := Option.bind_eq_some_iff.1 hr
    rw [h x (by simp) _ _ h1]
    exact ih (fun y hy => h y (by simp [hy])) o1 h2

/-- The client's loops start from the replies of the servers. -/
theorem remoteUniform_start {α : Type} (R : Draws) (wr : Bool) (count : Nat) (default : α) (nodes : List Int)
    (servers : List (List (Option (Nat × List α)))) (s : Nat) :
    remoteUniform R wr count default nodes (servers.map (uReply nodes)) s =
      uniformNodes R wr count default nodes ((servers.map fun as => Srv.mk [] as).map (·.state nodes)) s := by
  rw [remoteUniform, List.map_map, List.map_map]
  rfl

theorem srv_answers {α : Type} (servers : List (List (Option (Nat × List α)))) (p : Nat) :
    ((servers.map fun as => Srv.mk [] as).filterMap fun v => (v.as[p]?).join) = answersAt servers p := by
  rw [List.filterMap_map]
  rfl

theorem answersAt_rows {α : Type} {Q : α → Prop} {servers : List (List (Option α))}
    (h : ∀ as ∈ servers, ∀ x, some x ∈ as → Q x) (p : Nat) : ∀ x ∈ answersAt servers p, Q x := by
  intro x hx
  obtain ⟨as, has, hj⟩ := List.mem_filterMap.1 hx
  refine h as has x ?_
  cases hq : as[p]? with
  | none => rw [hq] at hj; simp at hj
  | some b =>
    rw [hq, Option.join_some] at hj
    rw [← hj]
    exact List.mem_of_getElem? hq

/-- Uniform sampling without replacement: for all draws, requests (nodes may repeat), servers and answers, every row
consists of samples offered for its own node, taken from distinct places, as many as there are, then defaults. -/
theorem C26_uniform_without {α : Type} (R : Draws) (count : Nat) (default : α) (nodes : List Int)
    (servers : List (List (Option (Nat × List α)))) (ha : ∀ as ∈ servers, Answers nodes as)
    (hrow : ∀ as ∈ servers, ∀ x, some x ∈ as → x.2.length = count) (s : Nat) :
    ∃ outs s', remoteUniform R true count default nodes (servers.map (uReply nodes)) s = some (outs, s') ∧
      outs.length = nodes.length ∧ ∀ (p : Nat) (out : List α), outs[p]? = some out →
        Selection ((answersAt servers p).flatMap fun x => x.2.take (min x.1 count)) (List.replicate count default) out := by
  rw [remoteUniform_start]
  obtain ⟨outs, s', h1, h2, h3⟩ := uniformNodes_eq R true count default
    (fun as out => Selection (as.flatMap fun x => x.2.take (min x.1 count)) (List.replicate count default) out)
    nodes (servers.map fun as => Srv.mk [] as) (by
      intro v hv
      obtain ⟨as, has, rfl⟩ := List.mem_map.1 hv
      exact ⟨ha as has, by simp, hrow as has⟩) s (by
      intro p _ s
      rw [srv_answers]
      have hr := answersAt_rows hrow p
      obtain ⟨out, seen, s', h1, h2, h3⟩ := C18_distinct R ((answersAt servers p).map fun x => (x.1, x.2.take (min x.1 count)))
        (List.replicate count default) (by
          intro x hx
          obtain ⟨y, hy, rfl⟩ := List.mem_map.1 hx
          simp only [List.length_take, List.length_replicate, hr y hy]
          omega) s
      refine ⟨out, seen, s', ?_, ?_⟩
      · refine foldlM_mono_mem (fun x => (x.1, x.2.take (min x.1 count))) _ ?_ _ _ h1
        intro x hx o o' ho
        rw [List.length_replicate] at ho
        exact mergeAdd_mono R (rowUpdate_take (hr x hx)) _ _ _ _ ho
      · rw [List.flatMap_map] at h3
        exact h3)
  exact ⟨outs, s', h1, h2, fun p out hp => by rw [← srv_answers]; exact h3 p out hp⟩

/-- Uniform sampling with replacement: every row has `count` samples offered for its own node by servers where the node
has neighbours; defaults if there are none. -/
theorem C26_uniform_with {α : Type} (R : Draws) (count : Nat) (default : α) (nodes : List Int)
    (servers : List (List (Option (Nat × List α)))) (ha : ∀ as ∈ servers, Answers nodes as)
    (hrow : ∀ as ∈ servers, ∀ x, some x ∈ as → x.2.length = count) (s : Nat) :
    ∃ outs s', remoteUniform R false count default nodes (servers.map (uReply nodes)) s = some (outs, s') ∧
      outs.length = nodes.length ∧ ∀ (p : Nat) (out : List α), outs[p]? = some out →
        Sampled ((answersAt servers p).flatMap fun x => if x.1 = 0 then [] else x.2) count default out := by
  rw [remoteUniform_start]
  have := uniformNodes_eq R false count default
    (fun (as : List (Nat × List α)) out =>
      Sampled (as.flatMap fun x => if x.1 = 0 then [] else x.2) count default out)
    nodes (servers.map fun as => Srv.mk [] as) (by
      intro v hv
      obtain ⟨as, has, rfl⟩ := List.mem_map.1 hv
      exact ⟨ha as has, by simp, hrow as has⟩) s (by
      intro p _ s
      rw [srv_answers]
      have hr := answersAt_rows hrow p
      generalize answersAt servers p = as at hr
      obtain ⟨out, seen, s', h1, h2⟩ := withReplacement_run R count
        (as.map fun x => (List.range x.1).map fun i => x.2.getD (i % count) default)
        (all := []) (out0 := List.replicate count default) (out := List.replicate count default) (seen := 0)
        ⟨rfl, by simp, fun _ => rfl, by simp⟩ s
      rw [List.nil_append] at h2
      refine ⟨out, seen, s', ?_, ?_⟩
      · refine foldlM_mono_mem (fun x => (List.range x.1).map fun i => x.2.getD (i % count) default) _ ?_ _ _ h1
        intro x hx o o' ho
        rw [List.length_map, List.length_range] at ho
        exact withReplacementAdd_mono R _ _ (fun hc => rowUpdate_virtual (hr x hx) hc) _ _ ho
      · have hmem : ∀ z ∈ (as.map fun x => (List.range x.1).map fun i => x.2.getD (i % count) default).flatten, 0 < count →
            z ∈ as.flatMap fun x => if x.1 = 0 then [] else x.2 := by
          intro z hz hc
          obtain ⟨l, hl, hzl⟩ := List.mem_flatten.1 hz
          obtain ⟨x, hx, rfl⟩ := List.mem_map.1 hl
          obtain ⟨i, hi, rfl⟩ := List.mem_map.1 hzl
          refine List.mem_flatMap.2 ⟨x, hx, ?_⟩
          have := List.mem_range.1 hi
          rw [if_neg (by omega)]
          have hm : i % count < x.2.length := by rw [hr x hx]; exact Nat.mod_lt _ hc
          rw [List.getD_eq_getElem?_getD, List.getElem?_eq_getElem hm]
          exact List.getElem_mem hm
        refine ⟨h2.len, ?_, ?_⟩
        · intro hne z hz
          have hc : 0 < count := by
            rw [← h2.len]
            exact List.length_pos_of_mem hz
          by_cases hall : (as.map fun x => (List.range x.1).map fun i => x.2.getD (i % count) default).flatten = []
          · exfalso
            obtain ⟨y, hy⟩ := List.exists_mem_of_ne_nil _ hne
            obtain ⟨x, hx, hyx⟩ := List.mem_flatMap.1 hy
            by_cases hx0 : x.1 = 0
            · rw [if_pos hx0] at hyx; simp at hyx
            · have : x.2.getD (0 % count) default ∈
                  (as.map fun x => (List.range x.1).map fun i => x.2.getD (i % count) default).flatten := by
                refine List.mem_flatten.2 ⟨_, List.mem_map.2 ⟨x, hx, rfl⟩, List.mem_map.2 ⟨0, ?_, rfl⟩⟩
                exact List.mem_range.2 (by omega)
              rw [hall] at this
              simp at this
          · exact hmem z (h2.mem hall z hz) hc
        · intro he
          by_cases hc : 0 < count
          · apply h2.empty
            apply List.eq_nil_iff_forall_not_mem.2
            intro z hz
            have := hmem z hz hc
            rw [he] at this
            simp at this
          · have : count = 0 := by omega
            have hl := h2.len
            subst this
            simpa using List.eq_nil_of_length_eq_zero hl)
  obtain ⟨outs, s', h1, h2, h3⟩ := this
  exact ⟨outs, s', h1, h2, fun p out hp => by rw [← srv_answers]; exact h3 p out hp⟩

/-- Replies in any order are the replies of the servers in some order. -/
theorem order_servers {α ρ : Type} (servers : List α) (f : α → ρ) (order : List (ρ × Nat)) (h : order.Perm (servers.map f).zipIdx) :
    ∃ (todo : List α) (ids : List Nat), order = (todo.map f).zip ids ∧ ids.length = todo.length ∧ todo.Perm servers := by
  have h1 : (servers.map f).zipIdx = servers.zipIdx.map fun x => (f x.1, x.2) := by
    rw [List.zipIdx_map]
    rfl
  rw [h1] at h
  suffices ∀ (l : List (α × Nat)) (order : List (ρ × Nat)), order.Perm (l.map fun x => (f x.1, x.2)) →
      ∃ l' : List (α × Nat), l'.Perm l ∧ order = l'.map fun x => (f x.1, x.2) by
    obtain ⟨l, hl, rfl⟩ := this _ _ h
    refine ⟨l.map (·.1), l.map (·.2), ?_, by simp, ?_⟩
    · clear hl h this
      induction l with
      | nil => rfl
      | cons x l ih => simp only [List.map_cons, List.zip_cons_cons, ih]
    · have := hl.map (·.1)
      rwa [List.zipIdx_map_fst] at this
  intro l
  induction l with
  | nil => intro order h; exact ⟨[], .refl _, by simpa using h⟩
  | cons x l ih =>
    intro order h
    rw [List.map_cons] at h
    obtain ⟨a, b, rfl⟩ := List.append_of_mem (h.symm.subset (List.mem_cons_self ..))
    have h2 : (a ++ b).Perm (l.map fun x => (f x.1, x.2)) := by
      have h3 : ((f x.1, x.2) :: (a ++ b)).Perm ((f x.1, x.2) :: l.map fun x => (f x.1, x.2)) :=
        (List.perm_middle.symm).trans h
      exact List.Perm.cons_inv h3
    obtain ⟨l', hp, he⟩ := ih _ h2
    obtain ⟨a', b', rfl, ha, hb⟩ := List.map_eq_append_iff.1 he.symm
    refine ⟨a' ++ x :: b', List.perm_middle.trans (hp.cons x), ?_⟩
    rw [List.map_append, List.map_cons, ha, hb]

/-- Weighted sampling: for all draws, requests, servers and answers with weights that float32 sums exactly, and for
every order in which replies are stored and callbacks run, every row consists of samples the servers offered for its
own node; defaults if the node's neighbours have no weight; the row is left alone if no server knows the node. -/
theorem C26_weighted {α : Type} (D : WDraws) (count : Nat) (default : α) (nodes : List Int) (outs0 : List (List α))
    (h0 : outs0.length = nodes.length) (hc : ∀ o ∈ outs0, o.length = count)
    (servers : List (List (Option (Int × List α)))) (ha : ∀ as ∈ servers, Answers nodes as)
    (hrow : ∀ as ∈ servers, ∀ x, some x ∈ as → x.2.length = count ∧ 0 ≤ x.1)
    (hsum : ∀ p, totalWeight (answersAt servers p) ≤ 2 ^ 24)
    (evs : List (Ev (WReply α))) (hev : Schedule (servers.map (wReply nodes)) evs) :
    ∃ outs, remoteWeighted D count default nodes outs0 evs servers.length = some outs ∧ outs.length = nodes.length ∧
      ∀ (p : Nat) (out : List α), outs[p]? = some out →
        MergedRow (∀ i, 0 < (D.real i).1) count default (outs0.getD p []) (answersAt servers p) out := by
  obtain ⟨order, h1, h2, -⟩ := eachReply_eq (mergeWeighted D count default) ⟨[], []⟩
    ((nodes.zip outs0).map fun x => WCell.mk x.1 0 x.2, 0) _ evs hev
  rw [List.length_map] at h2
  obtain ⟨todo, ids, rfl, h4, h5⟩ := order_servers servers (wReply nodes) order h1
  have hperm : ∀ p, (answersAt todo p).Perm (answersAt servers p) := fun p => h5.filterMap _
  have hw : ∀ p, cellSum (answersAt todo p) = totalWeight (answersAt servers p) := by
    intro p
    have : ∀ {a b : List Int}, a.Perm b → a.sum = b.sum := by
      intro a b h
      induction h with
      | nil => rfl
      | cons x _ ih => simp [ih]
      | swap x y l => simp only [List.sum_cons]; omega
      | trans _ _ h1 h2 => exact h1.trans h2
    exact this ((hperm p).map (·.1))
  obtain ⟨cells, r, h6, h7, h8⟩ := foldlM_mergeWeighted D count default nodes outs0 [] todo ids h4
    (fun as has => ⟨ha as (h5.subset has), hrow as (h5.subset has)⟩)
    (fun p => by rw [List.nil_append, hw]; exact hsum p)
    ((nodes.zip outs0).map fun x => WCell.mk x.1 0 x.2) (by
      rw [List.map_map]
      have : ((fun x : WCell α => x.node) ∘ fun x : Int × List α => WCell.mk x.1 0 x.2) = Prod.fst := rfl
      rw [this, List.map_fst_zip (by omega)]) 0 (by
      intro p c hp
      rw [List.getElem?_map] at hp
      obtain ⟨x, hx, rfl⟩ := Option.map_eq_some_iff.1 hp
      obtain ⟨-, hx2⟩ := List.getElem?_zip_eq_some.1 hx
      refine ⟨by simp [answersAt, cellSum], hc _ (List.mem_of_getElem? hx2), ?_, ?_, ?_, ?_⟩
      · intro _
        simp [List.getD_eq_getElem?_getD, hx2]
      · simp [answersAt]
      · simp [answersAt, cellSum]
      · simp [answersAt, cellSum])
  refine ⟨cells.map (·.row), ?_, ?_, ?_⟩
  · rw [remoteWeighted, h2, h6]
    rfl
  · have := congrArg List.length h7
    simpa using this
  · intro p out hp
    rw [List.getElem?_map] at hp
    obtain ⟨c, hcp, rfl⟩ := Option.map_eq_some_iff.1 hp
    have hi := h8 p c hcp
    rw [List.nil_append] at hi
    have hmem : ∀ a, a ∈ answersAt todo p ↔ a ∈ answersAt servers p := fun a => (hperm p).mem_iff
    have hnil : answersAt servers p = [] → answersAt todo p = [] := fun h => by
      have := hperm p
      rw [h] at this
      exact this.eq_nil
    refine ⟨hi.length, fun h => hi.none (hnil h), ?_, ?_, ?_⟩
    · intro hne hz
      refine hi.zero (fun h => hne ?_) (by rw [hw]; exact hz)
      have := hperm p
      rw [h] at this
      exact this.symm.eq_nil
    · intro hz x hx
      obtain ⟨a, h9, h10⟩ := hi.mem (by rw [hw]; exact hz) x hx
      exact ⟨a, (hmem a).1 h9, h10⟩
    · intro hD hz x hx
      obtain ⟨a, h9, h10⟩ := hi.pos hD (by rw [hw]; exact hz) x hx
      exact ⟨a, (hmem a).1 h9, h10⟩

/-- Two servers; node 5 is requested twice and known to both, 6 only to the second one, 7 to none. -/
def C26_nodes : List Int := [5, 6, 5, 7]

def C26_uniform : List (List (Option (Nat × List (Int × Int)))) :=
  [[some (3, [(50, 0), (51, 0)]), none, some (3, [(51, 0), (52, 0)]), none],
   [some (1, [(53, 1), (-1, -1)]), some (2, [(60, 0), (61, 1)]), some (1, [(53, 1), (-1, -1)]), none]]

def C26_weights : List (List (Option (Int × List Nbr))) :=
  [[some (4, [⟨50, 0, 2⟩, ⟨51, 0, 2⟩]), none, some (4, [⟨51, 0, 2⟩, ⟨51, 0, 2⟩]), none],
   [some (1, [⟨53, 1, 1⟩, ⟨53, 1, 1⟩]), some (2, [⟨60, 0, 1⟩, ⟨61, 1, 1⟩]), some (1, [⟨53, 1, 1⟩, ⟨53, 1, 1⟩]), none]]

theorem C26_answers {α : Type} [DecidableEq α] (nodes : List Int) (servers : List (List (Option α)))
    (h : ∀ as ∈ servers, as.length = nodes.length ∧
      ∀ x ∈ nodes.zip as, ∀ y ∈ nodes.zip as, x.1 = y.1 → x.2.isSome = y.2.isSome) : ∀ as ∈ servers, Answers nodes as :=
  fun as has => ⟨(h as has).1, (h as has).2⟩

/-- Non-vacuity. -/
example (R : Draws) : ∃ outs s', remoteUniform R true 2 (-1, -1) C26_nodes (C26_uniform.map (uReply C26_nodes)) 0 = some (outs, s') ∧
    outs.length = 4 ∧ ∀ (p : Nat) (out : List (Int × Int)), outs[p]? = some out →
      Selection ((answersAt C26_uniform p).flatMap fun x => x.2.take (min x.1 2)) (List.replicate 2 (-1, -1)) out :=
  C26_uniform_without R 2 (-1, -1) C26_nodes C26_uniform (C26_answers _ _ (by decide)) (by
    intro as has x hx
    have : ∀ as ∈ C26_uniform, ∀ y ∈ as, ∀ x ∈ y.toList, x.2.length = 2 := by decide
    exact this as has _ hx x (by simp)) 0

example : remoteUniform (fun i => i * i + 3 * i / 2) true 2 (-1, -1) C26_nodes (C26_uniform.map (uReply C26_nodes)) 0 =
    some ([[(53, 1), (50, 0)], [(60, 0), (61, 1)], [(53, 1), (51, 0)], [(-1, -1), (-1, -1)]], 6) := by decide +kernel

example : remoteUniform (fun i => i * i + 3 * i / 2) false 2 (-1, -1) C26_nodes (C26_uniform.map (uReply C26_nodes)) 0 =
    some ([[(53, 1), (51, 0)], [(60, 0), (61, 1)], [(51, 0), (53, 1)], [(-1, -1), (-1, -1)]], 18) := by decide +kernel

/-- The second reply is merged first. -/
example (D : WDraws) (old : List (List Nbr)) (h0 : old.length = 4) (hc : ∀ o ∈ old, o.length = 2) :
    ∃ outs, remoteWeighted D 2 ⟨-1, -1, 0⟩ C26_nodes old
        [.recv 1 (wReply C26_nodes (C26_weights.getD 1 [])), .run 1, .recv 0 (wReply C26_nodes (C26_weights.getD 0 [])), .run 0] 2 =
      some outs ∧ outs.length = 4 ∧ ∀ (p : Nat) (out : List Nbr), outs[p]? = some out →
        MergedRow (∀ i, 0 < (D.real i).1) 2 ⟨-1, -1, 0⟩ (old.getD p []) (answersAt C26_weights p) out :=
  C26_weighted D 2 ⟨-1, -1, 0⟩ C26_nodes old h0 hc C26_weights (C26_answers _ _ (by decide)) (by
    intro as has x hx
    have : ∀ as ∈ C26_weights, ∀ y ∈ as, ∀ x ∈ y.toList, x.2.length = 2 ∧ 0 ≤ x.1 := by decide
    exact this as has _ hx x (by simp)) (by
    intro p
    have : ∀ p < 4, totalWeight (answersAt C26_weights p) ≤ 2 ^ 24 := by decide
    by_cases hp : p < 4
    · exact this p hp
    · have : answersAt C26_weights p = [] := by
        simp only [answersAt, C26_weights, List.filterMap_cons, List.filterMap_nil]
        rw [List.getElem?_eq_none (by simp; omega), List.getElem?_eq_none (by simp; omega)]
        rfl
      rw [this]
      decide) _ (by constructor <;> decide +kernel)

end DeepGNN
