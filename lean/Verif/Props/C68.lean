import Verif.Proofs.RemoteLastN
import Verif.Proofs.RemoteStrings
import Verif.Proofs.Distribute
import Verif.Props.C07
import Verif.Props.C41

/-
C68 The last created neighbours from several servers.
-/

namespace DeepGNN

open Spec

variable {C : WeightCodec} {wm : Option Nat} {m : Meta} {parts : List (List (List Rec))} {g : Graph}

/-- The reply with the given answers, one per node. -/
def answersReply (N : Nat) (l : List Answer) : LastNReply :=
  ⟨l.map fun a => a.kept.length, (l.map fun a => a.kept ++ List.replicate (N - a.kept.length) emptySlot).flatten⟩

theorem mergeLastReply_eq (N i : Nat) (l : List Answer) (a : Answer) (ha : l[i]? = some a)
    (hl : ∀ a ∈ l, a.kept.length ≤ N) (s : LastN) :
    mergeLastReply N i s (answersReply N l) = a.kept.foldlM (LastN.push N) s := by
  have hk := hl a (List.mem_of_getElem? ha)
  unfold mergeLastReply answersReply
  simp only []
  rw [List.getElem?_map, ha, Option.map_some, Option.bind_some,
    rows_get N (l.map fun a => a.kept ++ List.replicate (N - a.kept.length) emptySlot) (by
      intro r hr
      obtain ⟨b, hb, rfl⟩ := List.mem_map.1 hr
      have := hl b hb
      simp; omega) i a.kept.length _ (by rw [List.getElem?_map, ha]; rfl) hk, Option.bind_some]
  simp

/-- A server that holds some of the partitions finds the live edges in them. -/
theorem lastN_server (h : Built C wm m parts g) (hwm : 0 ≤ m.watermark) (reqs : List (Int × Int)) (types : List Int) (N : Nat)
    (hN : 0 < N)
    (hgap : ∀ q ∈ reqs, ∀ x ∈ edgeRecords parts, ∀ y ∈ edgeRecords parts, x.src = q.1 →
      y.src = q.1 → y.typ ∈ types → (∃ t ∈ types, x.typ < t ∧ t < y.typ) → x.typ ∈ types)
    (hc : ∀ r ∈ allRecords parts, ∀ c, r.created = some c → 0 ≤ c)
    (hr : ∀ r ∈ allRecords parts, r.removed ≠ some 0)
    (hnow : ∀ q ∈ reqs, ∀ e ∈ allTimedEdges parts, e.src = q.1 → e.removed ≠ some q.2) :
    ∃ l : List Answer, l.length = reqs.length ∧
      g.getLastN (reqs.map (·.1)) (reqs.map (·.2)) (sortUnique types) N = some (answersReply N l) ∧
      ∀ (i : Nat) (q : Int × Int) (a : Answer), reqs[i]? = some q → l[i]? = some a → a.Ok N ∧
        a.seen.map unweighted = (liveSlots parts q.1 q.2 types).map unweighted ∧
        (ExactWeights parts → a.seen = liveSlots parts q.1 q.2 types) := by
  obtain ⟨rs, h1, h2, h3⟩ := mapM_lookup (l := reqs) (f := fun x => g.lastNFound (sortUnique types) N x.1 x.2)
    (P := fun q r => r.2 = r.1.out.length ∧ ∃ a : Answer, a.kept = r.1.out ∧ a.Ok N ∧
        a.seen.map unweighted = (liveSlots parts q.1 q.2 types).map unweighted ∧
        (ExactWeights parts → a.seen = liveSlots parts q.1 q.2 types)) (by
      intro q hq
      obtain ⟨es, s, d, seen, he, hfold, h1, h2, hinv⟩ := h.lastNState hwm q types N hN (hgap q hq) hc hr (hnow q hq)
      exact ⟨(s, s.queue.length), lastNFound_eq g _ N q.1 q.2 he hfold, hinv.queue_length,
        ⟨s.out, d, seen⟩, rfl, ⟨hinv.perm, hinv.out_length, hinv.recent⟩, h1, h2⟩)
  have hz : (reqs.map (·.1)).zip (reqs.map (·.2)) = reqs := by
    clear hgap hnow h1 h2 h3
    induction reqs with
    | nil => rfl
    | cons a l ih => simp [ih]
  have hans : ∀ (rs : List (LastN × Nat)) (reqs : List (Int × Int)), rs.length = reqs.length →
      (∀ (i : Nat) (q : Int × Int) (r : LastN × Nat), reqs[i]? = some q → rs[i]? = some r →
        r.2 = r.1.out.length ∧ ∃ a : Answer, a.kept = r.1.out ∧ a.Ok N ∧
        a.seen.map unweighted = (liveSlots parts q.1 q.2 types).map unweighted ∧
        (ExactWeights parts → a.seen = liveSlots parts q.1 q.2 types)) →
      ∃ l : List Answer, l.length = reqs.length ∧
        (⟨rs.map (·.2), rs.flatMap fun r => r.1.out ++ List.replicate (N - r.1.out.length) emptySlot⟩ : LastNReply) =
          answersReply N l ∧
        ∀ (i : Nat) (q : Int × Int) (a : Answer), reqs[i]? = some q → l[i]? = some a → a.Ok N ∧
          a.seen.map unweighted = (liveSlots parts q.1 q.2 types).map unweighted ∧
          (ExactWeights parts → a.seen = liveSlots parts q.1 q.2 types) := by
    intro rs
    induction rs with
    | nil =>
      intro reqs hl _
      have : reqs = [] := List.eq_nil_of_length_eq_zero hl.symm
      subst this
      exact ⟨[], rfl, rfl, by simp⟩
    | cons r rs ih =>
      intro reqs hl hP
      cases reqs with
      | nil => simp at hl
      | cons q reqs =>
        obtain ⟨l, h1, h2, h3⟩ := ih reqs (by simpa using hl) fun i q r hq hr => hP (i + 1) q r (by simpa using hq) (by simpa using hr)
        obtain ⟨e1, a, e2, e3⟩ := hP 0 q r rfl rfl
        refine ⟨a :: l, by simp [h1], ?_, ?_⟩
        · simp only [answersReply, LastNReply.mk.injEq] at h2 ⊢
          simp only [List.map_cons, List.flatMap_cons, List.flatten_cons, h2.1, h2.2, e2, e1, and_self]
        · intro i q' a' hq' ha'
          cases i with
          | zero =>
            rw [List.getElem?_cons_zero, Option.some.injEq] at hq' ha'
            subst hq' ha'
            exact e3
          | succ i => exact h3 i q' a' (by simpa using hq') (by simpa using ha')
  obtain ⟨l, h4, h5, h6⟩ := hans rs reqs h2 h3
  refine ⟨l, h4, ?_, h6⟩
  rw [Graph.getLastN, hz, h1, Option.map_some, h5]

/-- Servers that hold the partitions `parts`, for all distributions over servers and every order of replies: each of the
requests gets the `N` most recently created neighbours at its timestamp, of all servers, and defaults.  The weights are
those reported by the servers (`seen`), equal to the given ones if sums are exact.  Missing, as in C07: edges removed
exactly at the timestamp, gaps in the types, removal at time 0, inexact weights. -/
theorem C68_last_n_partial (servers : List (List (List (List Rec)) × Graph)) (hne : servers ≠ [])
    (hs : ∀ s ∈ servers, Built C wm m s.1 s.2) (hp : (servers.flatMap (·.1)).Perm parts) (hwm : 0 ≤ m.watermark)
    (reqs : List (Int × Int)) (types : List Int) (N : Nat) (hN : 0 < N) (default : Slot)
    (hgap : ∀ q ∈ reqs, ∀ x ∈ edgeRecords parts, ∀ y ∈ edgeRecords parts, x.src = q.1 →
      y.src = q.1 → y.typ ∈ types → (∃ t ∈ types, x.typ < t ∧ t < y.typ) → x.typ ∈ types)
    (hc : ∀ r ∈ allRecords parts, ∀ c, r.created = some c → 0 ≤ c)
    (hr : ∀ r ∈ allRecords parts, r.removed ≠ some 0)
    (hnow : ∀ q ∈ reqs, ∀ e ∈ allTimedEdges parts, e.src = q.1 → e.removed ≠ some q.2) :
    ∃ replies, servers.mapM (fun s => s.2.getLastN (reqs.map (·.1)) (reqs.map (·.2)) (sortUnique types) N) = some replies ∧
      ∀ evs, Schedule replies evs → ∃ answers : List (List Slot), answers.length = reqs.length ∧
        remoteLastN reqs.length N default evs servers.length = some (some answers.flatten) ∧
        ∀ x ∈ reqs.zip answers, ∃ seen : List Slot,
          (seen.map unweighted).Perm ((liveSlots parts x.1.1 x.1.2 types).map unweighted) ∧
          ((∀ s ∈ servers, ExactWeights s.1) → seen.Perm (liveSlots parts x.1.1 x.1.2 types)) ∧
          MostRecent N default seen x.2 := by
  have hmem : ∀ s ∈ servers, ∀ p ∈ s.1, p ∈ parts :=
    fun s hsm p hpm => hp.subset (List.mem_flatMap.2 ⟨s, hsm, hpm⟩)
  have hrec : ∀ s ∈ servers, ∀ r ∈ allRecords s.1, r ∈ allRecords parts := by
    intro s hsm r hr
    obtain ⟨l, hl, hr⟩ := List.mem_flatten.1 hr
    obtain ⟨p, hp', hl⟩ := List.mem_flatten.1 hl
    exact List.mem_flatten.2 ⟨l, List.mem_flatten.2 ⟨p, hmem s hsm p hp', hl⟩, hr⟩
  have hedge : ∀ s ∈ servers, ∀ r ∈ edgeRecords s.1, r ∈ edgeRecords parts := by
    intro s hsm r hr
    obtain ⟨h1, h2⟩ := List.mem_filter.1 hr
    exact List.mem_filter.2 ⟨hrec s hsm r h1, h2⟩
  have htime : ∀ s ∈ servers, ∀ e ∈ allTimedEdges s.1, e ∈ allTimedEdges parts := by
    intro s hsm e he
    obtain ⟨l, hl, he⟩ := List.mem_flatMap.1 he
    obtain ⟨p, hp', hl⟩ := List.mem_flatten.1 hl
    exact List.mem_flatMap.2 ⟨l, List.mem_flatten.2 ⟨p, hmem s hsm p hp', hl⟩, he⟩
  have hex : ∀ s : List (List (List Rec)) × Graph, ∃ l : List Answer, s ∈ servers → l.length = reqs.length ∧
      s.2.getLastN (reqs.map (·.1)) (reqs.map (·.2)) (sortUnique types) N = some (answersReply N l) ∧
      ∀ (i : Nat) (q : Int × Int) (a : Answer), reqs[i]? = some q → l[i]? = some a → a.Ok N ∧
        a.seen.map unweighted = (liveSlots s.1 q.1 q.2 types).map unweighted ∧
        (ExactWeights s.1 → a.seen = liveSlots s.1 q.1 q.2 types) := by
    intro s
    by_cases hsm : s ∈ servers
    · obtain ⟨l, h1⟩ := lastN_server (hs s hsm) hwm reqs types N hN
        (fun q hq x hx y hy => hgap q hq x (hedge s hsm x hx) y (hedge s hsm y hy))
        (fun r h => hc r (hrec s hsm r h)) (fun r h => hr r (hrec s hsm r h))
        (fun q hq e he => hnow q hq e (htime s hsm e he))
      exact ⟨l, fun _ => h1⟩
    · exact ⟨[], fun h => absurd h hsm⟩
  obtain ⟨A, hA⟩ := Classical.axiomOfChoice hex
  clear hex
  refine ⟨servers.map fun s => answersReply N (A s), mapM_some_map _ _ _ fun s hsm => (hA s hsm).2.1, fun evs hev => ?_⟩
  have hw := waitAll_eq (fun rs => ((List.range reqs.length).mapM (mergeLastNode N default rs)).map List.flatten) ⟨[], []⟩
    (servers.map fun s => answersReply N (A s)) (by simpa using hne) evs hev
  rw [List.length_map] at hw
  have hspread : ∀ q : Int × Int, (servers.flatMap fun s => liveSlots s.1 q.1 q.2 types).Perm (liveSlots parts q.1 q.2 types) := by
    intro q
    have h1 : (liveSlots (servers.flatMap (·.1)) q.1 q.2 types).Perm (liveSlots parts q.1 q.2 types) :=
      ((hp.flatten.flatMap_right _).filter _).map _
    refine List.Perm.trans (.of_eq ?_) h1
    clear h1 hw hev hA hmem hrec hedge htime hp hs hne
    induction servers with
    | nil => rfl
    | cons s ss ih =>
      rw [List.flatMap_cons, ih]
      simp only [liveSlots, allTimedEdges, List.flatMap_cons, List.flatten_append, List.flatMap_append, List.filter_append,
        List.map_append]
  obtain ⟨answers, h1, h2, h3⟩ := mapM_lookup (l := List.range reqs.length)
    (f := mergeLastNode N default (servers.map fun s => answersReply N (A s)))
    (P := fun i ans => ∀ q, reqs[i]? = some q → ∃ seen : List Slot,
      (seen.map unweighted).Perm ((liveSlots parts q.1 q.2 types).map unweighted) ∧
      ((∀ s ∈ servers, ExactWeights s.1) → seen.Perm (liveSlots parts q.1 q.2 types)) ∧ MostRecent N default seen ans) (by
    intro i hi
    have hi := List.mem_range.1 hi
    let a : List (List (List Rec)) × Graph → Answer := fun s => (A s).getD i ⟨[], [], []⟩
    have ha : ∀ s ∈ servers, (A s)[i]? = some (a s) := by
      intro s hsm
      have : i < (A s).length := by rw [(hA s hsm).1]; exact hi
      simp [a, this]
    have hok : ∀ s ∈ servers, (a s).Ok N ∧
        (a s).seen.map unweighted = (liveSlots s.1 reqs[i].1 reqs[i].2 types).map unweighted ∧
        (ExactWeights s.1 → (a s).seen = liveSlots s.1 reqs[i].1 reqs[i].2 types) :=
      fun s hsm => (hA s hsm).2.2 i _ _ (List.getElem?_eq_getElem hi) (ha s hsm)
    obtain ⟨t, h1, h2⟩ := merge_recent hN default (servers.map a) (by
      intro x hx
      obtain ⟨s, hsm, rfl⟩ := List.mem_map.1 hx
      exact (hok s hsm).1)
    have hfold : (servers.map fun s => answersReply N (A s)).foldlM (mergeLastReply N i) ({} : LastN) = some t := by
      rw [← h1]
      have hlen : ∀ s ∈ servers, ∀ x ∈ A s, x.kept.length ≤ N := by
        intro s hsm x hx
        obtain ⟨k, hk⟩ := List.mem_iff_getElem?.1 hx
        have hkl : k < reqs.length := by rw [← (hA s hsm).1]; exact (List.getElem?_eq_some_iff.1 hk).1
        have := ((hA s hsm).2.2 k _ x (List.getElem?_eq_getElem hkl) hk).1.length
        omega
      clear h1 h2 hok hspread hw hev hA hmem hrec hedge htime hp hs hne
      generalize ({} : LastN) = st
      induction servers generalizing st with
      | nil => rfl
      | cons s ss ih =>
        rw [List.map_cons, List.foldlM_cons, mergeLastReply_eq N i (A s) (a s) (ha s (by simp)) (hlen s (by simp)),
          List.map_cons, List.flatMap_cons, List.foldlM_append]
        congr 1
        funext st'
        exact ih (fun s hs => ha s (by simp [hs])) (fun s hs => hlen s (by simp [hs])) st'
    refine ⟨_, by rw [mergeLastNode, hfold, Option.map_some], ?_⟩
    intro q hq
    rw [List.getElem?_eq_getElem hi, Option.some.injEq] at hq
    subst hq
    refine ⟨(servers.map a).flatMap (·.seen), ?_, ?_, h2⟩
    · have h3 := (hspread reqs[i]).map unweighted
      refine List.Perm.trans (.of_eq ?_) h3
      rw [List.flatMap_map]
      clear h3 h2 h1 hfold ha hspread hw hev hA hmem hrec hedge htime hp hs hne
      induction servers with
      | nil => rfl
      | cons s ss ih =>
        simp only [List.flatMap_cons, List.map_append]
        rw [ih fun s hs => hok s (by simp [hs]), (hok s (by simp)).2.1]
    · intro hw
      refine List.Perm.trans (.of_eq ?_) (hspread reqs[i])
      rw [List.flatMap_map]
      have : ∀ s ∈ servers, (a s).seen = liveSlots s.1 reqs[i].1 reqs[i].2 types := fun s hsm => (hok s hsm).2.2 (hw s hsm)
      rw [List.flatMap_def, List.flatMap_def, List.map_congr_left this])
  refine ⟨answers, by simpa using h2, ?_, ?_⟩
  · rw [remoteLastN, hw, h1]; rfl
  · intro x hx
    obtain ⟨i, hi⟩ := List.mem_iff_getElem?.1 hx
    rw [List.getElem?_zip_eq_some] at hi
    have hil := (List.getElem?_eq_some_iff.1 hi.1).1
    exact h3 i i x.2 (List.getElem?_range hil) hi.2 x.1 hi.1

/-- Another partition with edges of node 1. -/
def C68_second : List (List (List Rec)) :=
  [[[⟨1, -1, 0, 1, some 1, none, []⟩, ⟨1, 5, 0, 2, some 3, none, []⟩, ⟨1, 6, 1, 3, some 1, some 2, []⟩]]]

/-- Non-vacuity: two servers, the edges of node 1 at time 4.  Each server knows two or one of the three live edges with the
latest creation times. -/
example : ∃ g k, Built intCodec (some 9) ⟨0, 0, 9⟩ C06_example g ∧ Built intCodec (some 9) ⟨0, 0, 9⟩ C68_second k ∧
    ∃ replies, [g, k].mapM (fun s => s.getLastN [1] [4] [0, 1] 2) = some replies ∧
      ∀ evs, Schedule replies evs → ∃ a : List Slot, remoteLastN 1 2 ⟨-1, -1, 0, -1⟩ evs 2 = some (some a) ∧
        MostRecent 2 ⟨-1, -1, 0, -1⟩ [⟨3, 0, 9, 1⟩, ⟨2, 0, 7, 2⟩, ⟨4, 1, 5, 4⟩, ⟨5, 0, 2, 3⟩] a := by
  obtain ⟨g, hg, hb⟩ := built_of_check (wm := some 9) (m := ⟨0, 0, 9⟩) (parts := C06_example) (by decide +kernel)
  obtain ⟨k, hk, hb'⟩ := built_of_check (wm := some 9) (m := ⟨0, 0, 9⟩) (parts := C68_second) (by decide +kernel)
  obtain ⟨replies, h1, h2⟩ := C68_last_n_partial (C := intCodec) (wm := some 9) (m := ⟨0, 0, 9⟩) (parts := C06_example ++ C68_second)
    [(C06_example, g), (C68_second, k)]
    (by simp) (by simp [hb, hb']) (.of_eq (by simp)) (by decide) [(1, 4)] [1, 0] 2 (by decide) ⟨-1, -1, 0, -1⟩
    (by decide +kernel) (by
      intro r hr c hc
      have : ∀ r ∈ Spec.allRecords (C06_example ++ C68_second), 0 ≤ r.created.getD 0 := by decide +kernel
      simpa [hc] using this r hr) (by decide +kernel) (by decide +kernel)
  refine ⟨g, k, hb, hb', replies, by simpa [show sortUnique [1, 0] = [0, 1] by decide +kernel] using h1, fun evs hev => ?_⟩
  obtain ⟨answers, h3, h4, h5⟩ := h2 evs hev
  match answers, h3 with
  | [a], _ =>
    obtain ⟨seen, -, h6, h7⟩ := h5 ((1, 4), a) (by simp)
    have h6 := h6 (by
      intro s hs
      simp only [List.mem_cons, List.not_mem_nil, or_false] at hs
      rcases hs with rfl | rfl
      · exact exact_of_total (parts := C06_example) (by decide +kernel) (by decide +kernel)
      · exact exact_of_total (parts := C68_second) (by decide +kernel) (by decide +kernel))
    rw [show liveSlots (C06_example ++ C68_second) 1 4 [1, 0] = [⟨3, 0, 9, 1⟩, ⟨2, 0, 7, 2⟩, ⟨4, 1, 5, 4⟩, ⟨5, 0, 2, 3⟩] by
      decide +kernel] at h6
    obtain ⟨kept, rest, h8, h9, h10⟩ := h7
    exact ⟨a, by simpa using h4, kept, rest, h8.trans h6, by rw [← h6.length_eq]; exact h9, h10⟩

/-- At time 5 the edge of node 1 with lifetime [1, 5) does not exist any more, but whatever the order of events the client returns it. -/
theorem C68_removed_now_refuted : ∃ g, Built intCodec (some 9) ⟨0, 0, 9⟩ C06_example g ∧ (liveSlots C06_example 1 5 [0]).map (·.dst) = [2] ∧
    ∃ reply, [g].mapM (fun s => s.getLastN [1] [5] [0] 2) = some [reply] ∧
      ∀ evs, Schedule [reply] evs → remoteLastN 1 2 ⟨-1, -1, 0, -1⟩ evs 1 = some (some [⟨3, 0, 9, 1⟩, ⟨2, 0, 7, 2⟩]) := by
  obtain ⟨g, hg, hb⟩ := built_of_check (wm := some 9) (m := ⟨0, 0, 9⟩) (parts := C06_example) (by decide +kernel)
  refine ⟨g, hb, by decide +kernel, ⟨[2], [⟨3, 0, 9, 1⟩, ⟨2, 0, 7, 2⟩]⟩, ?_, fun evs hev => ?_⟩
  · have : (graphOf intCodec (some 9) ⟨0, 0, 9⟩ C06_example).bind (fun g => (g.getLastN [1] [5] [0] 2).map fun r => (r.counts, r.slots)) =
        some ([2], [⟨3, 0, 9, 1⟩, ⟨2, 0, 7, 2⟩]) := by decide +kernel
    rw [hg, Option.bind_some] at this
    obtain ⟨r, h1, h2⟩ := Option.map_eq_some_iff.1 this
    obtain ⟨c, l⟩ := r
    simp only [Prod.mk.injEq] at h2
    obtain ⟨rfl, rfl⟩ := h2
    rw [List.mapM_cons, h1]
    rfl
  · rw [remoteLastN]
    have := waitAll_eq (fun rs => ((List.range 1).mapM (mergeLastNode 2 ⟨-1, -1, 0, -1⟩ rs)).map List.flatten) ⟨[], []⟩ _ (by simp) evs hev
    rw [List.length_singleton] at this
    rw [this]
    decide +kernel

end DeepGNN
