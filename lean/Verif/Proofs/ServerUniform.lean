import Verif.Model.ServerUniform
import Verif.Props.C16
import Verif.Props.C26
import Verif.Props.C62

/-
Answers of servers to uniform sampling requests.
-/

namespace DeepGNN

open Spec

/-- Elements at distinct positions. -/
def SubOf {α : Type} (xs stream : List α) : Prop :=
  ∃ ps : List Nat, ps.Nodup ∧ ps.map (fun p => stream[p]?) = xs.map some

theorem SubOf.lt {α : Type} {xs stream : List α} {ps : List Nat} (h : ps.map (fun p => stream[p]?) = xs.map some) :
    ∀ p ∈ ps, p < stream.length := by
  intro p hp
  have : stream[p]? ∈ xs.map some := by rw [← h]; exact List.mem_map_of_mem hp
  obtain ⟨x, -, hx⟩ := List.mem_map.1 this
  exact (List.getElem?_eq_some_iff.1 hx.symm).1

theorem SubOf.append {α : Type} {a b s t : List α} (h1 : SubOf a s) (h2 : SubOf b t) : SubOf (a ++ b) (s ++ t) := by
  obtain ⟨ps, n1, e1⟩ := h1
  obtain ⟨qs, n2, e2⟩ := h2
  have l1 := SubOf.lt e1
  refine ⟨ps ++ qs.map (s.length + ·), ?_, ?_⟩
  · rw [List.nodup_append]
    refine ⟨n1, ?_, ?_⟩
    · rw [List.Nodup, List.pairwise_map]
      exact n2.imp fun hne he => hne (by omega)
    · intro p hp q hq
      obtain ⟨r, hr, rfl⟩ := List.mem_map.1 hq
      have := l1 p hp
      omega
  · rw [List.map_append, List.map_append, ← e1, ← e2, List.map_map]
    congr 1
    · apply List.map_congr_left
      intro p hp
      rw [List.getElem?_append_left (l1 p hp)]
    · apply List.map_congr_left
      intro q hq
      simp only [Function.comp]
      rw [List.getElem?_append_right (by omega)]
      congr 1
      omega

theorem SubOf.trans {α : Type} {a b c : List α} (h1 : SubOf a b) (h2 : SubOf b c) : SubOf a c := by
  obtain ⟨ps, n1, e1⟩ := h1
  obtain ⟨qs, n2, e2⟩ := h2
  have l1 := SubOf.lt e1
  have hl : qs.length = b.length := by simpa using congrArg List.length e2
  refine ⟨ps.map fun p => qs.getD p 0, ?_, ?_⟩
  · rw [List.Nodup, List.pairwise_map]
    refine List.Pairwise.imp_of_mem ?_ n1
    intro p q hp hq hne he
    have h3 := l1 p hp
    have h4 := l1 q hq
    rw [List.getD_eq_getElem?_getD, List.getD_eq_getElem?_getD, List.getElem?_eq_getElem (by omega),
      List.getElem?_eq_getElem (by omega), Option.getD_some, Option.getD_some] at he
    rw [List.Nodup, List.pairwise_iff_getElem] at n2
    rcases Nat.lt_or_gt_of_ne hne with hlt | hlt
    · exact n2 p q _ _ hlt he
    · exact n2 q p _ _ hlt he.symm
  · rw [← e1, List.map_map]
    apply List.map_congr_left
    intro p hp
    have h3 := l1 p hp
    have h4 : (qs.map fun p => c[p]?)[p]? = (b.map some)[p]? := by rw [e2]
    rw [List.getElem?_map, List.getElem?_map, List.getElem?_eq_getElem (by omega), List.getElem?_eq_getElem h3] at h4
    simp only [Function.comp, List.getD_eq_getElem?_getD, List.getElem?_eq_getElem (show p < qs.length by omega), Option.getD_some,
      List.getElem?_eq_getElem h3]
    simpa using h4

theorem subOf_nil {α : Type} (s : List α) : SubOf [] s := ⟨[], by simp, rfl⟩

/-- The samples of a row. -/
theorem selection_sub {α : Type} {stream out : List α} {count : Nat} {d : α}
    (h : Selection stream (List.replicate count d) out) :
    SubOf (out.take (min stream.length count)) stream ∧ out.length = count := by
  obtain ⟨chosen, ps, e1, e2, e3, e4⟩ := h
  rw [List.length_replicate] at e2
  constructor
  · have : out.take (min stream.length count) = chosen := by
      rw [e1, Nat.min_comm, ← e2, List.take_left]
    rw [this]
    exact ⟨ps, e3, e4⟩
  · rw [e1, List.length_append, List.length_drop, List.length_replicate, e2]
    omega

theorem selection_of_sub {α : Type} {a b rest out : List α} (h : Selection a rest out) (hs : SubOf a b)
    (hl : min rest.length a.length = min rest.length b.length) : Selection b rest out := by
  obtain ⟨chosen, ps, e1, e2, e3, e4⟩ := h
  obtain ⟨qs, n, e⟩ := SubOf.trans ⟨ps, e3, e4⟩ hs
  exact ⟨chosen, qs, e1, by rw [e2, hl], n, e⟩

variable {α : Type}

/-- What a server samples from for a request. -/
def OffersBy (g : Graph) (blocksOf : Option Int → Partition → Nat → Option (List (List α))) (q : Int × Option Int)
    (N : List α) : Prop :=
  ∃ es bs, g.entries q.1 = some es ∧
    es.mapM (fun x : Partition × Nat => blocksOf q.2 x.1 x.2) = some bs ∧ bs.flatten.flatten = N

/-- The same without creation times. -/
def Offers (g : Graph) (w : Bool) (types : List Int) (q : Int × Option Int) (N : List (Int × Int)) : Prop :=
  OffersBy g (fun ts p id => p.sampleBlocks w id ts (sortUnique types)) q N

/-- Answer of a server for a request with neighbours `N`. -/
structure UniformOk (w : Bool) (count : Nat) (default : α) (known : Bool) (N : List α)
    (a : Option (Nat × List α)) : Prop where
  known : a.isSome = known
  none : a = none → N = []
  some : ∀ x, a = some x → x.1 = N.length ∧ x.2.length = count ∧
    (w = true → Selection N (List.replicate count default) x.2) ∧ (w = false → Sampled N count default x.2)

theorem serverUniform1_ok {g : Graph} {w : Bool} {blocksOf : Option Int → Partition → Nat → Option (List (List α))}
    {q : Int × Option Int} {N : List α} (h : OffersBy g blocksOf q N) (R : Draws) (count : Nat) (hc : w = true → 0 < count) (default : α) (s : Nat) :
    ∃ a s', g.serverUniform1 R w (blocksOf q.2) count default q.1 s = some (a, s') ∧
      UniformOk w count default (g.nodeMap q.1).isSome N a := by
  obtain ⟨es, bs, h1, h2, rfl⟩ := h
  simp only [Graph.serverUniform1]
  cases hn : g.nodeMap q.1 with
  | none =>
    rw [Graph.entries, hn] at h1
    obtain rfl : [] = es := by simpa using h1
    obtain rfl : [] = bs := by simpa using h2
    exact ⟨none, s, rfl, rfl, fun _ => rfl, by simp⟩
  | some off =>
    simp only [h1, Option.bind_some, h2, length_flatten2]
    cases w with
    | true =>
      obtain ⟨o, a, s', h3, h4, h5⟩ := AlgL.run_selection R bs.flatten (List.replicate count default) (by simpa using hc rfl) s
      simp only [AlgL.run, List.length_replicate] at h3
      simp only [if_true, h3, Option.map_some]
      refine ⟨_, s', rfl, rfl, by simp, ?_⟩
      rintro x hx
      obtain rfl := Option.some.inj hx
      exact ⟨rfl, by simpa using h4, fun _ => h5, by simp⟩
    | false =>
      obtain ⟨o, a, s', h3, h4⟩ := withReplacement_run R count bs.flatten (all := []) (out0 := List.replicate count default)
        (out := List.replicate count default) (seen := 0) ⟨rfl, by simp, fun _ => rfl, by simp⟩ s
      rw [List.nil_append] at h4
      simp only [Bool.false_eq_true, if_false, h3, Option.map_some]
      refine ⟨_, s', rfl, rfl, by simp, ?_⟩
      rintro x hx
      obtain rfl := Option.some.inj hx
      exact ⟨rfl, h4.len, by simp, fun _ => ⟨h4.len, h4.mem, h4.empty⟩⟩

theorem serverUniformLoop_ok {g : Graph} {w : Bool} {blocksOf : Option Int → Partition → Nat → Option (List (List α))} (N : Int × Option Int → List α)
    (reqs : List (Int × Option Int)) (h : ∀ q ∈ reqs, OffersBy g blocksOf q (N q)) (R : Draws) (count : Nat)
    (hc : w = true → 0 < count) (default : α) (s : Nat) (r : UReply α) :
    ∃ as, g.serverUniformLoop R w blocksOf count default reqs s r =
        some { nodes := r.nodes ++ (uReply (reqs.map (·.1)) as).nodes, counts := r.counts ++ (uReply (reqs.map (·.1)) as).counts,
               nbrs := r.nbrs ++ (uReply (reqs.map (·.1)) as).nbrs } ∧
      as.length = reqs.length ∧ ∀ x ∈ reqs.zip as, UniformOk w count default (g.nodeMap x.1.1).isSome (N x.1) x.2 := by
  induction reqs generalizing s r with
  | nil => exact ⟨[], by simp [Graph.serverUniformLoop, uReply, knownNodes], rfl, by simp⟩
  | cons q reqs ih =>
    obtain ⟨a, s', h1, h2⟩ := serverUniform1_ok (h q (by simp)) R count hc default s
    obtain ⟨as, h3, h4, h5⟩ := ih (fun k hk => h k (by simp [hk])) s' (a.elim r fun a =>
        { nodes := r.nodes ++ [q.1], counts := r.counts ++ [a.1], nbrs := r.nbrs ++ a.2 })
    refine ⟨a :: as, ?_, by simp [h4], ?_⟩
    · rw [Graph.serverUniformLoop, h1, Option.bind_some]
      dsimp only
      rw [h3]
      cases a with
      | none => simp [uReply, knownNodes_cons]
      | some a => simp [uReply, knownNodes_cons]
    · intro x hx
      rw [List.zip_cons_cons] at hx
      rcases List.mem_cons.1 hx with rfl | hx
      · exact h2
      · exact h5 x hx

/-- The replies of all servers; a server is a graph `G σ` and what it offers. -/
theorem mapM_uniform {w : Bool} {σ : Type} (G : σ → Graph) (B : σ → Option Int → Partition → Nat → Option (List (List α))) (servers : List (σ × (Int × Option Int → List α)))
    (reqs : List (Int × Option Int)) (h : ∀ x ∈ servers, ∀ q ∈ reqs, OffersBy (G x.1) (B x.1) q (x.2 q))
    (Rs : List Draws) (hlen : Rs.length = servers.length) (count : Nat) (hc : w = true → 0 < count) (default : α) :
    ∃ asL : List (List (Option (Nat × List α))),
      (((servers.map (·.1)).zip Rs).mapM fun x : σ × Draws => (G x.1).serverUniformLoop x.2 w (B x.1) count default reqs 0 ⟨[], [], []⟩) =
        some (asL.map (uReply (reqs.map (·.1)))) ∧
      All2 (fun (x : σ × (Int × Option Int → List α)) as => as.length = reqs.length ∧
        ∀ z ∈ reqs.zip as, UniformOk w count default ((G x.1).nodeMap z.1.1).isSome (x.2 z.1) z.2) servers asL := by
  induction servers generalizing Rs with
  | nil => exact ⟨[], by simp, All2.nil⟩
  | cons x servers ih =>
    cases Rs with
    | nil => simp at hlen
    | cons E Rs =>
      obtain ⟨asL, h1, h2⟩ := ih (fun z hz => h z (by simp [hz])) Rs (by simpa using hlen)
      obtain ⟨as, h3, h4, h5⟩ := serverUniformLoop_ok x.2 reqs (h x (by simp)) E count hc default 0 ⟨[], [], []⟩
      refine ⟨as :: asL, ?_, All2.cons ⟨h4, h5⟩ h2⟩
      rw [List.map_cons, List.zip_cons_cons, List.mapM_cons, h3, h1]
      rfl

theorem uniform_answers {σ : Type} {G : σ → Graph} {w : Bool} {servers : List (σ × (Int × Option Int → List α))}
    {reqs : List (Int × Option Int)} {count : Nat} {default : α} {asL : List (List (Option (Nat × List α)))}
    (h : All2 (fun (x : σ × (Int × Option Int → List α)) as => as.length = reqs.length ∧
        ∀ z ∈ reqs.zip as, UniformOk w count default ((G x.1).nodeMap z.1.1).isSome (x.2 z.1) z.2) servers asL) :
    (∀ as ∈ asL, Answers (reqs.map (·.1)) as) ∧ ∀ as ∈ asL, ∀ x, some x ∈ as → x.2.length = count := by
  constructor
  · intro as has
    obtain ⟨x, hx, hl, hok⟩ := h.mem_right has
    refine ⟨by simpa using hl, ?_⟩
    intro a ha b hb hab
    rw [List.zip_map_left] at ha hb
    obtain ⟨a', ha', rfl⟩ := List.mem_map.1 ha
    obtain ⟨b', hb', rfl⟩ := List.mem_map.1 hb
    have h1 := (hok a' ha').known
    have h2 := (hok b' hb').known
    simp only [Prod.map] at hab ⊢
    simp only [id] at *
    rw [h1, h2, hab]
  · intro as has a ha
    obtain ⟨x, hx, hl, hok⟩ := h.mem_right has
    obtain ⟨p, hp⟩ := List.mem_iff_getElem?.1 ha
    obtain ⟨hp1, -⟩ := List.getElem?_eq_some_iff.1 hp
    have hz : (reqs[p]'(by omega), some a) ∈ reqs.zip as := by
      rw [List.mem_iff_getElem?]
      exact ⟨p, by rw [List.getElem?_zip_eq_some]; exact ⟨List.getElem?_eq_getElem (by omega), hp⟩⟩
    exact ((hok _ hz).some a rfl).2.1

theorem uniform_without {σ : Type} {G : σ → Graph} {servers : List (σ × (Int × Option Int → List α))}
    {reqs : List (Int × Option Int)} {count : Nat} {default : α} {asL : List (List (Option (Nat × List α)))}
    (h : All2 (fun (x : σ × (Int × Option Int → List α)) as => as.length = reqs.length ∧
        ∀ z ∈ reqs.zip as, UniformOk true count default ((G x.1).nodeMap z.1.1).isSome (x.2 z.1) z.2) servers asL)
    {p : Nat} {q : Int × Option Int} (hp : reqs[p]? = some q) :
    SubOf ((answersAt asL p).flatMap fun x => x.2.take (min x.1 count)) (servers.flatMap fun x => x.2 q) ∧
    min count ((answersAt asL p).flatMap fun x => x.2.take (min x.1 count)).length = min count (servers.flatMap fun x => x.2 q).length := by
  induction h with
  | nil => exact ⟨subOf_nil _, rfl⟩
  | cons hr _ ih =>
    rename_i x as servers asL _
    obtain ⟨hl, hr⟩ := hr
    have hpl := (List.getElem?_eq_some_iff.1 hp).1
    have hz : (q, as[p]'(by omega)) ∈ reqs.zip as := by
      rw [List.mem_iff_getElem?]
      exact ⟨p, by rw [List.getElem?_zip_eq_some]; exact ⟨hp, List.getElem?_eq_getElem (by omega)⟩⟩
    have hok := hr _ hz
    dsimp only at hok
    rw [answersAt_cons, List.getElem?_eq_getElem (by omega), Option.join_some, List.flatMap_append, List.flatMap_cons]
    generalize as[p]'(by omega) = a at hok
    obtain ⟨i1, i2⟩ := ih
    cases a with
    | none =>
      rw [hok.none rfl]
      exact ⟨i1, i2⟩
    | some a =>
      obtain ⟨e1, e2, e3, -⟩ := hok.some a rfl
      obtain ⟨f1, f2⟩ := selection_sub (e3 rfl)
      rw [← e1] at f1
      simp only [Option.toList_some, List.flatMap_cons, List.flatMap_nil, List.append_nil]
      refine ⟨f1.append i1, ?_⟩
      rw [List.length_append, List.length_append, List.length_take, e2, ← e1]
      omega

theorem uniform_with {σ : Type} {G : σ → Graph} {servers : List (σ × (Int × Option Int → List α))}
    {reqs : List (Int × Option Int)} {count : Nat} {default : α} {asL : List (List (Option (Nat × List α)))}
    (hc : 0 < count)
    (h : All2 (fun (x : σ × (Int × Option Int → List α)) as => as.length = reqs.length ∧
        ∀ z ∈ reqs.zip as, UniformOk false count default ((G x.1).nodeMap z.1.1).isSome (x.2 z.1) z.2) servers asL)
    {p : Nat} {q : Int × Option Int} (hp : reqs[p]? = some q) :
    (∀ z ∈ (answersAt asL p).flatMap (fun x => if x.1 = 0 then [] else x.2), z ∈ servers.flatMap fun x => x.2 q) ∧
    ((answersAt asL p).flatMap (fun x => if x.1 = 0 then [] else x.2) = [] → (servers.flatMap fun x => x.2 q) = []) := by
  induction h with
  | nil => exact ⟨by simp [answersAt], fun _ => rfl⟩
  | cons hr _ ih =>
    rename_i x as servers asL _
    obtain ⟨hl, hr⟩ := hr
    have hpl := (List.getElem?_eq_some_iff.1 hp).1
    have hz : (q, as[p]'(by omega)) ∈ reqs.zip as := by
      rw [List.mem_iff_getElem?]
      exact ⟨p, by rw [List.getElem?_zip_eq_some]; exact ⟨hp, List.getElem?_eq_getElem (by omega)⟩⟩
    have hok := hr _ hz
    dsimp only at hok
    rw [answersAt_cons, List.getElem?_eq_getElem (by omega), Option.join_some, List.flatMap_append, List.flatMap_cons]
    generalize as[p]'(by omega) = a at hok
    obtain ⟨i1, i2⟩ := ih
    cases a with
    | none =>
      rw [hok.none rfl]
      exact ⟨i1, i2⟩
    | some a =>
      obtain ⟨e1, e2, -, e3⟩ := hok.some a rfl
      obtain ⟨f1, f2, f3⟩ := e3 rfl
      simp only [Option.toList_some, List.flatMap_cons, List.flatMap_nil, List.append_nil]
      constructor
      · intro z hzz
        rcases List.mem_append.1 hzz with hzz | hzz
        · split at hzz
          · simp at hzz
          · rename_i hne
            exact List.mem_append_left _ (f2 (by intro hN; rw [hN] at e1; exact hne (by simpa using e1)) z hzz)
        · exact List.mem_append_right _ (i1 z hzz)
      · intro hnil
        obtain ⟨h1, h2⟩ := List.append_eq_nil_iff.1 hnil
        rw [i2 h2, List.append_nil]
        split at h1
        · rename_i h0
          exact List.eq_nil_of_length_eq_zero (by omega)
        · rw [h1] at e2
          simp at e2
          omega

/-- The whole request without replacement. -/
theorem servers_without {σ : Type} (G : σ → Graph) (B : σ → Option Int → Partition → Nat → Option (List (List α)))
    (servers : List (σ × (Int × Option Int → List α)))
    (reqs : List (Int × Option Int)) (h : ∀ x ∈ servers, ∀ q ∈ reqs, OffersBy (G x.1) (B x.1) q (x.2 q))
    (Rs : List Draws) (hlen : Rs.length = servers.length) (R : Draws) (count : Nat) (hc : 0 < count) (default : α) (s : Nat) :
    ∃ outs s', ((((servers.map (·.1)).zip Rs).mapM fun x : σ × Draws =>
        (G x.1).serverUniformLoop x.2 true (B x.1) count default reqs 0 ⟨[], [], []⟩).bind fun replies =>
          remoteUniform R true count default (reqs.map (·.1)) replies s) = some (outs, s') ∧
      outs.length = reqs.length ∧ ∀ y ∈ reqs.zip outs, Selection (servers.flatMap fun x => x.2 y.1) (List.replicate count default) y.2 := by
  obtain ⟨asL, h1, h2⟩ := mapM_uniform (w := true) G B servers reqs h Rs hlen count (fun _ => hc) default
  obtain ⟨h3, h4⟩ := uniform_answers h2
  obtain ⟨outs, s', e1, e2, e3⟩ := C26_uniform_without R count default (reqs.map (·.1)) asL h3 h4 s
  refine ⟨outs, s', by rw [h1, Option.bind_some, e1], by simpa using e2, ?_⟩
  intro y hy
  obtain ⟨p, hp⟩ := List.mem_iff_getElem?.1 hy
  obtain ⟨p1, p2⟩ := List.getElem?_zip_eq_some.1 hp
  obtain ⟨f1, f2⟩ := uniform_without h2 p1
  exact selection_of_sub (e3 p y.2 p2) f1 (by simpa using f2)

theorem uniformServers_without {types : List Int} (servers : List (Graph × (Int × Option Int → List (Int × Int))))
    (reqs : List (Int × Option Int)) (h : ∀ x ∈ servers, ∀ q ∈ reqs, Offers x.1 true types q (x.2 q))
    (Rs : List Draws) (hlen : Rs.length = servers.length) (R : Draws) (count : Nat) (hc : 0 < count) (default : Int × Int) (s : Nat) :
    ∃ outs s', uniformServers ((servers.map (·.1)).zip Rs) R true types count default reqs s = some (outs, s') ∧
      outs.length = reqs.length ∧ ∀ y ∈ reqs.zip outs,
        Selection (servers.flatMap fun x => x.2 y.1) (List.replicate count default) y.2 := by
  have := servers_without (fun g => g) (fun _ ts p id => p.sampleBlocks true id ts (sortUnique types)) servers reqs h Rs hlen R count hc default s
  exact this

/-- The same with creation times. -/
theorem createdServers_without {types : List Int} (servers : List ((Graph × Int) × (Int × Option Int → List ((Int × Int) × Int))))
    (reqs : List (Int × Option Int)) (h : ∀ x ∈ servers, ∀ q ∈ reqs,
      OffersBy x.1.1 (fun ts p id => p.offered x.1.2 true id ts (sortUnique types)) q (x.2 q))
    (Rs : List Draws) (hlen : Rs.length = servers.length) (R : Draws) (count : Nat) (hc : 0 < count) (default : Int × Int) (s : Nat) :
    ∃ outs s', createdServers ((servers.map (·.1)).zip Rs) R true types count default reqs s = some (outs, s') ∧
      outs.length = reqs.length ∧ ∀ y ∈ reqs.zip outs, Selection (servers.flatMap fun x => x.2 y.1) (List.replicate count (default, -1)) y.2 := by
  have := servers_without (fun x : Graph × Int => x.1) (fun x ts p id => p.offered x.2 true id ts (sortUnique types)) servers reqs h Rs
    hlen R count hc (default, -1) s
  exact this

/-- The whole request with replacement. -/
theorem servers_with {σ : Type} (G : σ → Graph) (B : σ → Option Int → Partition → Nat → Option (List (List α)))
    (servers : List (σ × (Int × Option Int → List α)))
    (reqs : List (Int × Option Int)) (h : ∀ x ∈ servers, ∀ q ∈ reqs, OffersBy (G x.1) (B x.1) q (x.2 q))
    (Rs : List Draws) (hlen : Rs.length = servers.length) (R : Draws) (count : Nat) (default : α) (s : Nat) :
    ∃ outs s', ((((servers.map (·.1)).zip Rs).mapM fun x : σ × Draws =>
        (G x.1).serverUniformLoop x.2 false (B x.1) count default reqs 0 ⟨[], [], []⟩).bind fun replies =>
          remoteUniform R false count default (reqs.map (·.1)) replies s) = some (outs, s') ∧
      outs.length = reqs.length ∧ ∀ y ∈ reqs.zip outs, Sampled (servers.flatMap fun x => x.2 y.1) count default y.2 := by
  obtain ⟨asL, h1, h2⟩ := mapM_uniform (w := false) G B servers reqs h Rs hlen count (by simp) default
  obtain ⟨h3, h4⟩ := uniform_answers h2
  obtain ⟨outs, s', e1, e2, e3⟩ := C26_uniform_with R count default (reqs.map (·.1)) asL h3 h4 s
  refine ⟨outs, s', by rw [h1, Option.bind_some, e1], by simpa using e2, ?_⟩
  intro y hy
  obtain ⟨p, hp⟩ := List.mem_iff_getElem?.1 hy
  obtain ⟨p1, p2⟩ := List.getElem?_zip_eq_some.1 hp
  obtain ⟨g1, g2, g3⟩ := e3 p y.2 p2
  by_cases hc : 0 < count
  · obtain ⟨f1, f2⟩ := uniform_with hc h2 p1
    refine ⟨g1, ?_, ?_⟩
    · intro hne z hz
      exact f1 z (g2 (fun he => hne (f2 he)) z hz)
    · intro he
      apply g3
      apply List.eq_nil_iff_forall_not_mem.2
      intro z hz
      have := f1 z hz
      rw [he] at this
      simp at this
  · have hl : y.2 = [] := List.eq_nil_of_length_eq_zero (by omega)
    refine ⟨g1, by simp [hl], fun _ => ?_⟩
    rw [hl, show count = 0 by omega]; rfl

theorem uniformServers_with {types : List Int} (servers : List (Graph × (Int × Option Int → List (Int × Int))))
    (reqs : List (Int × Option Int)) (h : ∀ x ∈ servers, ∀ q ∈ reqs, Offers x.1 false types q (x.2 q))
    (Rs : List Draws) (hlen : Rs.length = servers.length) (R : Draws) (count : Nat) (default : Int × Int) (s : Nat) :
    ∃ outs s', uniformServers ((servers.map (·.1)).zip Rs) R false types count default reqs s = some (outs, s') ∧
      outs.length = reqs.length ∧ ∀ y ∈ reqs.zip outs, Sampled (servers.flatMap fun x => x.2 y.1) count default y.2 := by
  have := servers_with (fun g => g) (fun _ ts p id => p.sampleBlocks false id ts (sortUnique types)) servers reqs h Rs hlen R count default s
  exact this

/-- The same with creation times. -/
theorem createdServers_with {types : List Int} (servers : List ((Graph × Int) × (Int × Option Int → List ((Int × Int) × Int))))
    (reqs : List (Int × Option Int)) (h : ∀ x ∈ servers, ∀ q ∈ reqs,
      OffersBy x.1.1 (fun ts p id => p.offered x.1.2 false id ts (sortUnique types)) q (x.2 q))
    (Rs : List Draws) (hlen : Rs.length = servers.length) (R : Draws) (count : Nat) (default : Int × Int) (s : Nat) :
    ∃ outs s', createdServers ((servers.map (·.1)).zip Rs) R false types count default reqs s = some (outs, s') ∧
      outs.length = reqs.length ∧ ∀ y ∈ reqs.zip outs, Sampled (servers.flatMap fun x => x.2 y.1) count (default, -1) y.2 := by
  have := servers_with (fun x : Graph × Int => x.1) (fun x ts p id => p.offered x.2 false id ts (sortUnique types)) servers reqs h Rs
    hlen R count (default, -1) s
  exact this

end DeepGNN
