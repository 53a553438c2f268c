import Verif.Spec.Cluster
import Verif.Props.C48

namespace DeepGNN

open Cluster Files Spec

/-- `launch` with the list of servers it ends up with. -/
def launchOn (servers : List Name) (p : Place) : Option Launched :=
  if p.server ≥ 0 then
    (servers[p.server.toNat]?).map fun a => ⟨some (a, p.server.toNat, servers.length), p.rank, servers⟩
  else some ⟨none, p.rank, servers⟩

theorem launchOn_some {servers : List Name} {p : Place} (h : p.server < servers.length) :
    ∃ l, launchOn servers p = some l ∧ l.servers = servers ∧ l.rank = p.rank ∧
      (p.server < 0 → l.server = none) ∧ ∀ s : Nat, p.server = s → ∃ a, servers[s]? = some a ∧ l.server = some (a, s, servers.length) := by
  by_cases h0 : p.server ≥ 0
  · have hlt : p.server.toNat < servers.length := by omega
    refine ⟨_, by rw [launchOn, if_pos h0, List.getElem?_eq_getElem hlt]; rfl, rfl, rfl, fun h => absurd h0 (by omega), ?_⟩
    rintro s hs
    have : p.server.toNat = s := by omega
    subst this
    exact ⟨_, List.getElem?_eq_getElem hlt, rfl⟩
  · exact ⟨_, by rw [launchOn, if_neg h0], rfl, rfl, fun _ => rfl, fun s hs => by omega⟩

/-- Places that are good for the servers. -/
theorem serversOnce_of {run : Nat → Option Launched} {procs : Nat} {servers : List Name} (place : Nat → Place)
    (hr : ∀ p < procs, run p = launchOn servers (place p)) (hs : ∀ p < procs, (place p).server < servers.length)
    (hu : ∀ s : Nat, s < servers.length → ∃ p < procs, (place p).server = s)
    (hv : ∀ p < procs, ∀ p' < procs, 0 ≤ (place p).server → (place p).server = (place p').server → p = p')
    (hk : ∀ p < procs, ∀ p' < procs, (place p).rank = (place p').rank → p = p') : ServersOnce run procs servers := by
  have key : ∀ p < procs, ∀ l x, run p = some l → l.server = some x →
      ∃ s : Nat, (place p).server = s ∧ ∃ a, servers[s]? = some a ∧ x = (a, s, servers.length) := by
    intro p hp l x hl hx
    obtain ⟨l', h1, -, -, h4, h5⟩ := launchOn_some (hs p hp)
    rw [hr p hp, h1] at hl
    cases hl
    by_cases h0 : (place p).server < 0
    · rw [h4 h0] at hx; cases hx
    · obtain ⟨s, hs'⟩ : ∃ s : Nat, (place p).server = s := ⟨(place p).server.toNat, by omega⟩
      obtain ⟨a, ha, hb⟩ := h5 s hs'
      rw [hb] at hx
      cases hx
      exact ⟨s, hs', a, ha, rfl⟩
  refine ⟨fun p hp => ?_, fun s a ha => ?_, fun p hp l x hl hx => ?_, fun p hp p' hp' l l' hl hl' h => ?_⟩
  · obtain ⟨l, h1, h2, -⟩ := launchOn_some (hs p hp)
    exact ⟨l, by rw [hr p hp, h1], h2⟩
  · obtain ⟨hlt, -⟩ := List.getElem?_eq_some_iff.1 ha
    obtain ⟨p, hp, hps⟩ := hu s hlt
    obtain ⟨l, h1, h2, -, -, h5⟩ := launchOn_some (hs p hp)
    obtain ⟨b, hb, hb'⟩ := h5 s hps
    rw [ha] at hb
    cases hb
    refine ⟨p, hp, l, by rw [hr p hp, h1], hb', fun p' hp' l' x hl' hx hxs => ?_⟩
    obtain ⟨s', hs', a', -, rfl⟩ := key p' hp' l' x hl' hx
    have : s' = s := hxs
    subst this
    exact hv p' hp' p hp (by omega) (by omega)
  · obtain ⟨s, -, a, ha, rfl⟩ := key p hp l x hl hx
    exact ⟨ha, rfl⟩
  · obtain ⟨m, h1, -, h3, -⟩ := launchOn_some (hs p hp)
    obtain ⟨m', h1', -, h3', -⟩ := launchOn_some (hs p' hp')
    rw [hr p hp, h1] at hl
    rw [hr p' hp', h1'] at hl'
    cases hl
    cases hl'
    exact hk p hp p' hp' (by rw [← h3, ← h3', h])

/-- Servers that are started once load the partitions once. -/
theorem loadedOnce_of {run : Nat → Option Launched} {procs : Nat} {servers : List Name} (h : ServersOnce run procs servers)
    (h0 : servers ≠ []) (path : String) {ids : List Nat} (hids : ids.Perm (List.range ids.length)) :
    LoadedOnce run procs path ids := by
  have hn : 0 < servers.length := List.length_pos_iff.2 h0
  have hs := C48_servers_partial path ids hids hn
  refine ⟨fun id hid => ?_, fun p hp l parts hl hparts x hx => ?_⟩
  · obtain ⟨s, hlt, parts, h1, h2, h3⟩ := hs.once id hid
    obtain ⟨p, hp, l, hl, hls, hu⟩ := h.once s _ (List.getElem?_eq_getElem hlt)
    refine ⟨p, hp, l, parts, hl, by rw [Launched.loads, hls]; exact h1, h2, fun p' hp' l' parts' hl' hparts' hm => ?_⟩
    rw [Launched.loads] at hparts'
    split at hparts'
    · cases hparts'; cases hm
    · rename_i x hx
      obtain ⟨h4, h5⟩ := h.only p' hp' l' x hl' hx
      obtain ⟨h6, -⟩ := List.getElem?_eq_some_iff.1 h4
      rw [h5] at hparts'
      exact hu p' hp' l' x hl' hx (h3 x.2.1 h6 parts' hparts' hm)
  · rw [Launched.loads] at hparts
    split at hparts
    · cases hparts; cases hx
    · rename_i y hy
      obtain ⟨h4, h5⟩ := h.only p hp l y hl hy
      obtain ⟨h6, -⟩ := List.getElem?_eq_some_iff.1 h4
      rw [h5] at hparts
      exact hs.only _ h6 parts hparts x hx

/-! ### Launchers that tell the rank -/

/-- The place of a process in a job with equally many processes on each host. -/
def rankPlace (hosts size p : Nat) : Place := ⟨if p % size = 0 then (p / size : Nat) else -1, p, hosts * size⟩

theorem fromRanks_eq {hosts size p : Nat} (hz : 0 < size) :
    fromRanks (some (p % size)) (some size) (some p) (some (hosts * size)) = some (some (rankPlace hosts size p)) := by
  simp only [fromRanks, Option.bind_some, rankPlace]
  split
  · rw [if_neg (by omega)]
  · rfl

theorem findPlace_ranks {env : Env} {hosts size p : Nat} (hz : 0 < size) (hj : Job env hosts size p) (tf : Option TfConfig)
    {o : Options} (ho : o.serverIdx = none) : findPlace env tf o = some (rankPlace hosts size p, o) := by
  rw [findPlace, ho]
  cases hj with
  | ddp h => simp only [tryDdp, h.localRank, h.localSize, h.rank, h.world, fromRanks_eq hz, Option.bind_some]
  | mpi h hd =>
    have : tryDdp env = some none := by simp only [tryDdp, hd, fromRanks]
    simp only [this, Option.bind_some, tryMpi, h.localRank, Option.isSome_some, if_true, h.localSize, h.rank, h.world, fromRanks_eq hz]
  | horovod h hd hm =>
    have : tryDdp env = some none := by simp only [tryDdp, hd, fromRanks]
    simp only [this, Option.bind_some, tryMpi, hm, Option.isSome_none, Bool.false_eq_true, if_false, h.localRank, h.localSize, h.rank,
      h.world, fromRanks_eq hz]

theorem rankPlace_lt {hosts size p : Nat} (hz : 0 < size) (hp : p < hosts * size) : (rankPlace hosts size p).server < hosts := by
  have : p / size < hosts := (Nat.div_lt_iff_lt_mul hz).2 hp
  simp only [rankPlace]
  split <;> omega

theorem rankPlace_ex {hosts size s : Nat} (hz : 0 < size) (hs : s < hosts) :
    s * size < hosts * size ∧ (rankPlace hosts size (s * size)).server = s := by
  refine ⟨(Nat.mul_lt_mul_right hz).2 hs, ?_⟩
  simp only [rankPlace, Nat.mul_mod_left, if_true, Nat.mul_div_cancel _ hz]

theorem rankPlace_inj {hosts size p p' : Nat} (hz : 0 < size) (h0 : 0 ≤ (rankPlace hosts size p).server)
    (h : (rankPlace hosts size p).server = (rankPlace hosts size p').server) : p = p' := by
  have e := Nat.div_add_mod p size
  have e' := Nat.div_add_mod p' size
  simp only [rankPlace] at h0 h
  split at h0
  · rename_i h1
    rw [if_pos h1] at h
    split at h
    · rename_i h2
      have : p / size = p' / size := by omega
      rw [← e, ← e', h1, h2, this]
    · omega
  · omega

/-! ### Lists of workers -/

theorem sortedHosts_snoc (l : List Name) (w : Name) (hs : List Name) :
    (l ++ [w]).foldl (fun hs w => if host w ∈ hs then hs else hs ++ [host w]) hs =
      (let d := l.foldl (fun hs w => if host w ∈ hs then hs else hs ++ [host w]) hs
       if host w ∈ d then d else d ++ [host w]) := by
  rw [List.foldl_append]; rfl

/-- Hosts of a list in the order of their first worker. -/
def firstHosts (l : List Name) : List Name := l.foldl (fun hs w => if host w ∈ hs then hs else hs ++ [host w]) []

theorem firstHosts_snoc (l : List Name) (w : Name) :
    firstHosts (l ++ [w]) = if host w ∈ firstHosts l then firstHosts l else firstHosts l ++ [host w] := sortedHosts_snoc l w []

theorem firstHosts_prefix (a b : List Name) : ∃ c, firstHosts (a ++ b) = firstHosts a ++ c := by
  induction b generalizing a with
  | nil => exact ⟨[], by simp⟩
  | cons w b ih =>
    obtain ⟨c, hc⟩ := ih (a ++ [w])
    rw [List.append_assoc, List.singleton_append] at hc
    rw [hc, firstHosts_snoc]
    split
    · exact ⟨c, rfl⟩
    · exact ⟨host w :: c, by simp⟩

/-- The server index of the worker at position `i`. -/
def indexAt (l : List Name) (i : Nat) : Int :=
  match l[i]? with
  | none => -1
  | some w => if host w ∈ firstHosts (l.take i) then -1 else (firstHosts (l.take i)).length

theorem indexLoop_eq (cur : Name) (post : List Name) : ∀ (pre seen hs : List Name), cur ∉ pre → (∀ h, h ∈ seen ↔ h ∈ hs) →
    seen.length = hs.length →
    indexLoop cur seen (pre ++ cur :: post) =
      some (let d := pre.foldl (fun hs w => if host w ∈ hs then hs else hs ++ [host w]) hs
            if host cur ∈ d then -1 else (d.length : Int))
  | [], seen, hs, _, h1, h2 => by
    rw [List.nil_append, indexLoop, if_neg (fun h => h rfl)]
    by_cases h : host cur ∈ seen
    · rw [if_pos h]
      exact (congrArg some (if_pos ((h1 _).1 h))).symm
    · rw [if_neg h, h2]
      exact (congrArg some (if_neg (fun h' => h ((h1 _).2 h')))).symm
  | w :: pre, seen, hs, hc, h1, h2 => by
    have hw : cur ≠ w := fun h => hc (h ▸ List.mem_cons_self)
    rw [List.cons_append, indexLoop, if_pos hw, List.foldl_cons]
    refine indexLoop_eq cur post pre _ _ (fun h => hc (List.mem_cons_of_mem _ h)) ?_ ?_
    · intro h
      by_cases hh : host w ∈ seen
      · rw [if_pos hh, if_pos ((h1 _).1 hh), h1]
      · rw [if_neg hh, if_neg (fun h => hh ((h1 _).2 h))]
        simp only [List.mem_cons, List.mem_append, List.not_mem_nil, or_false, h1]
        exact Or.comm
    · by_cases hh : host w ∈ seen
      · rw [if_pos hh, if_pos ((h1 _).1 hh), h2]
      · rw [if_neg hh, if_neg (fun h => hh ((h1 _).2 h))]
        simp [h2]

theorem indexLoop_at {l : List Name} (hl : l.Nodup) {i : Nat} {w : Name} (hi : l[i]? = some w) :
    indexLoop w [] l = some (indexAt l i) := by
  obtain ⟨hlt, hw⟩ := List.getElem?_eq_some_iff.1 hi
  have e : l = l.take i ++ w :: l.drop (i + 1) := by
    rw [← hw, ← List.drop_eq_getElem_cons hlt, List.take_append_drop]
  have hn : w ∉ l.take i := by
    intro h
    rw [e, List.nodup_append] at hl
    exact hl.2.2 w h w List.mem_cons_self rfl
  have := indexLoop_eq w (l.drop (i + 1)) (l.take i) [] [] hn (fun _ => Iff.rfl) rfl
  rw [← e] at this
  rw [this, indexAt, hi]
  rfl

theorem firstHosts_take_succ {l : List Name} {i : Nat} {w : Name} (hi : l[i]? = some w) :
    firstHosts (l.take (i + 1)) =
      if host w ∈ firstHosts (l.take i) then firstHosts (l.take i) else firstHosts (l.take i) ++ [host w] := by
  rw [List.take_add_one, hi]
  exact firstHosts_snoc _ _

theorem firstHosts_take_le (l : List Name) {i j : Nat} (h : i ≤ j) :
    ∃ c, firstHosts (l.take j) = firstHosts (l.take i) ++ c := by
  obtain ⟨k, rfl⟩ : ∃ k, j = i + k := ⟨j - i, by omega⟩
  rw [List.take_add]
  exact firstHosts_prefix _ _

theorem indexAt_succ {l : List Name} {i : Nat} {s : Nat} (h : indexAt l i = s) :
    ∃ w, l[i]? = some w ∧ firstHosts (l.take (i + 1)) = firstHosts (l.take i) ++ [host w] ∧ (firstHosts (l.take i)).length = s := by
  rw [indexAt] at h
  split at h
  · omega
  · rename_i w hw
    split at h
    · omega
    · rename_i hh
      exact ⟨w, hw, by rw [firstHosts_take_succ hw, if_neg hh], by omega⟩

/-- The host of a worker with an index is at this position. -/
theorem indexAt_host {l : List Name} {i s : Nat} (h : indexAt l i = s) : (firstHosts l)[s]? = (l[i]?).map host := by
  obtain ⟨w, h1, h2, h3⟩ := indexAt_succ h
  obtain ⟨c, hc⟩ := firstHosts_prefix (l.take (i + 1)) (l.drop (i + 1))
  rw [List.take_append_drop] at hc
  rw [hc, h2, h1, ← h3]
  simp

theorem indexAt_lt {l : List Name} (i : Nat) : indexAt l i < (firstHosts l).length := by
  by_cases h : indexAt l i < 0
  · omega
  · obtain ⟨s, hs⟩ : ∃ s : Nat, indexAt l i = s := ⟨(indexAt l i).toNat, by omega⟩
    obtain ⟨w, h1, -⟩ := indexAt_succ hs
    have h2 := indexAt_host hs
    rw [h1] at h2
    obtain ⟨h3, -⟩ := List.getElem?_eq_some_iff.1 h2
    omega

theorem indexAt_inj {l : List Name} {i j s : Nat} (hi : indexAt l i = s) (hj : indexAt l j = s) : i = j := by
  have key : ∀ i j, indexAt l i = s → indexAt l j = s → ¬ i < j := by
    intro i j hi hj hlt
    obtain ⟨w, -, h2, h3⟩ := indexAt_succ hi
    obtain ⟨w', -, -, h3'⟩ := indexAt_succ hj
    obtain ⟨c, hc⟩ := firstHosts_take_le l (i := i + 1) (j := j) hlt
    rw [hc, h2] at h3'
    simp at h3'
    omega
  have h1 := key i j hi hj
  have h2 := key j i hj hi
  omega

theorem indexAt_ex {l : List Name} : ∀ n ≤ l.length, ∀ s < (firstHosts (l.take n)).length, ∃ i < n, indexAt l i = s
  | 0, _, s, hs => by rw [List.take_zero] at hs; exact absurd hs (by simp [firstHosts])
  | n + 1, hn, s, hs => by
    have hw : l[n]? = some (l[n]'(by omega)) := List.getElem?_eq_getElem _
    rw [firstHosts_take_succ hw] at hs
    split at hs
    · obtain ⟨i, hi, h⟩ := indexAt_ex n (by omega) s hs
      exact ⟨i, by omega, h⟩
    · rename_i hh
      by_cases h : s < (firstHosts (l.take n)).length
      · obtain ⟨i, hi, h⟩ := indexAt_ex n (by omega) s h
        exact ⟨i, by omega, h⟩
      · refine ⟨n, by omega, ?_⟩
        rw [indexAt, hw]
        simp only [if_neg hh]
        simp at hs
        omega

end DeepGNN
