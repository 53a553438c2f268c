import Verif.Proofs.Cluster
import Verif.Model.Metadata

/-
C74: a distributed job starts every graph server once.
-/

namespace DeepGNN

open Cluster Files Spec

theorem countServers_given (int : List Nat → Option Nat) (text : List Nat) {o : Options} (h : o.numGe ≠ 0 ∨ o.servers ≠ []) :
    countServers int text o = some o := by
  rw [countServers, if_neg]
  rintro ⟨h1, h2⟩
  rcases h with h | h
  · exact h h1
  · exact h (List.length_eq_zero_iff.1 h2)

theorem launch_given {o : Options} (h : o.servers ≠ []) (p : Place) (listing : List (Name × Int)) :
    launch o p listing = launchOn o.servers p := by
  rw [launch, if_pos (List.length_pos_iff.2 h)]; rfl

theorem launch_found {o : Options} (h : o.servers = []) (p : Place) (listing : List (Name × Int)) :
    launch o p listing = launchOn (readAddresses listing) p := by
  have : (if o.servers.length > 0 then o.servers else readAddresses listing) = readAddresses listing := if_neg (by rw [h]; simp)
  rw [launch, this]; rfl

/-- Launchers that tell the rank, equally many processes on every host and a list of as many servers as hosts: every server
is started once, on the host with its number, and every partition is loaded once. -/
theorem C74_ranks_partial {hosts size : Nat} (hh : 0 < hosts) (hz : 0 < size) {env : Nat → Env}
    (hj : ∀ p < hosts * size, Job (env p) hosts size p) {o : Options} (ho : o.serverIdx = none) (hs : o.servers.length = hosts)
    (int : List Nat → Option Nat) (text : List Nat) (tf : Nat → Option TfConfig) (listing : Nat → List (Name × Int))
    (path : String) {ids : List Nat} (hids : ids.Perm (List.range ids.length)) :
    let run := fun p => backend int text (env p) (tf p) o (listing p)
    ServersOnce run (hosts * size) o.servers ∧ LoadedOnce run (hosts * size) path ids ∧
      ∀ p < hosts * size, ∀ l x, run p = some l → l.server = some x → x.2.1 = p / size := by
  intro run
  have h0 : o.servers ≠ [] := List.length_pos_iff.1 (by omega)
  have hr : ∀ p < hosts * size, run p = launchOn o.servers (rankPlace hosts size p) := by
    intro p hp
    show backend _ _ _ _ _ _ = _
    rw [backend, countServers_given int text (.inr h0), Option.bind_some, findPlace_ranks hz (hj p hp) (tf p) ho, Option.bind_some,
      launch_given h0]
  have h1 : ServersOnce run (hosts * size) o.servers := serversOnce_of (rankPlace hosts size) hr
    (fun p hp => by rw [hs]; exact rankPlace_lt hz hp) (fun s h => ⟨s * size, rankPlace_ex hz (hs ▸ h)⟩)
    (fun p _ p' _ h => rankPlace_inj hz h) (fun p _ p' _ h => Int.ofNat.inj h)
  refine ⟨h1, loadedOnce_of h1 h0 path hids, fun p hp l x hl hx => ?_⟩
  obtain ⟨l', h2, -, -, h4, h5⟩ := launchOn_some (servers := o.servers) (p := rankPlace hosts size p) (by rw [hs]; exact rankPlace_lt hz hp)
  rw [hr p hp, h2] at hl
  cases hl
  by_cases hm : p % size = 0
  · obtain ⟨a, -, ha⟩ := h5 (p / size) (by simp only [rankPlace, if_pos hm])
    rw [ha] at hx
    cases hx
    rfl
  · rw [h4 (by simp only [rankPlace, if_neg hm]; omega)] at hx
    cases hx

theorem filter_range_mod {size : Nat} (hz : 0 < size) : ∀ hosts : Nat,
    (List.range (hosts * size)).filter (fun q => decide (q % size = 0)) = (List.range hosts).map (· * size)
  | 0 => by simp
  | hosts + 1 => by
    obtain ⟨k, rfl⟩ : ∃ k, size = k + 1 := ⟨size - 1, by omega⟩
    have h1 : (List.map (fun x => hosts * (k + 1) + x) (List.range (k + 1))).filter (fun q => decide (q % (k + 1) = 0)) =
        [hosts * (k + 1)] := by
      rw [List.range_succ_eq_map, List.map_cons, List.filter_cons_of_pos (by simp), List.map_map]
      have : ((List.range k).map ((fun x => hosts * (k + 1) + x) ∘ Nat.succ)).filter (fun q => decide (q % (k + 1) = 0)) = [] := by
        rw [List.filter_eq_nil_iff]
        intro x hx
        obtain ⟨j, hj, rfl⟩ := List.mem_map.1 hx
        rw [List.mem_range] at hj
        simp only [Function.comp, Nat.mul_add_mod_self_right, decide_eq_true_eq]
        rw [Nat.mod_eq_of_lt (by omega)]
        omega
      rw [this]
      simp
    rw [Nat.add_mul, Nat.one_mul, List.range_add, List.filter_append, filter_range_mod hz hosts, h1, List.range_succ, List.map_append]
    rfl

theorem readAddresses_ranks {hosts size : Nat} (hz : 0 < size) (addr : Nat → Name) :
    readAddresses ((List.range (hosts * size)).map fun q => addressFile (addr q) (rankPlace hosts size q)) =
      (List.range hosts).map fun h => addr (h * size) := by
  have : ((fun f : Name × Int => decide (f.2 ≥ 0)) ∘ fun q => addressFile (addr q) (rankPlace hosts size q)) =
      fun q => decide (q % size = 0) := by
    funext q
    simp only [Function.comp, addressFile, rankPlace]
    by_cases h : q % size = 0
    · simp only [if_pos h, h, decide_true, decide_eq_true_eq]
      exact Int.natCast_nonneg _
    · simp only [if_neg h, h]
      rfl
  rw [readAddresses, List.filter_map, this, filter_range_mod hz, List.map_map, List.map_map]
  rfl

/-- Without a list of servers, if the number of servers is given and every process sees the files with the addresses in the
order of the ranks: the servers are started on the addresses of the first process of every host. -/
theorem C74_found_partial {hosts size : Nat} (hh : 0 < hosts) (hz : 0 < size) {env : Nat → Env}
    (hj : ∀ p < hosts * size, Job (env p) hosts size p) {o : Options} (ho : o.serverIdx = none) (hs : o.servers = [])
    (hn : o.numGe ≠ 0) (int : List Nat → Option Nat) (text : List Nat) (tf : Nat → Option TfConfig) (addr : Nat → Name)
    {place : Nat → Place} (hp : ∀ p < hosts * size, ∃ o', findPlace (env p) (tf p) o = some (place p, o'))
    {listing : Nat → List (Name × Int)}
    (hl : ∀ p < hosts * size, listing p = (List.range (hosts * size)).map fun q => addressFile (addr q) (place q))
    (path : String) {ids : List Nat} (hids : ids.Perm (List.range ids.length)) :
    let run := fun p => backend int text (env p) (tf p) o (listing p)
    ServersOnce run (hosts * size) ((List.range hosts).map fun h => addr (h * size)) ∧
      OwnAddress run (hosts * size) addr ∧ LoadedOnce run (hosts * size) path ids := by
  intro run
  have hpl : ∀ p < hosts * size, place p = rankPlace hosts size p := by
    intro p hlt
    obtain ⟨o', h⟩ := hp p hlt
    rw [findPlace_ranks hz (hj p hlt) (tf p) ho] at h
    exact ((Prod.mk.inj (Option.some.inj h)).1).symm
  have hls : ∀ p < hosts * size, readAddresses (listing p) = (List.range hosts).map fun h => addr (h * size) := by
    intro p hlt
    rw [hl p hlt, ← readAddresses_ranks hz]
    congr 1
    refine List.map_congr_left fun q hq => ?_
    rw [hpl q (List.mem_range.1 hq)]
  have hr : ∀ p < hosts * size, run p = launchOn ((List.range hosts).map fun h => addr (h * size)) (rankPlace hosts size p) := by
    intro p hlt
    show backend _ _ _ _ _ _ = _
    rw [backend, countServers_given int text (.inl hn), Option.bind_some, findPlace_ranks hz (hj p hlt) (tf p) ho, Option.bind_some,
      launch_found hs, hls p hlt]
  have hlen : ((List.range hosts).map fun h => addr (h * size)).length = hosts := by simp
  have h0 : ((List.range hosts).map fun h => addr (h * size)) ≠ [] := List.length_pos_iff.1 (by omega)
  have h1 := serversOnce_of (rankPlace hosts size) hr (fun p hlt => by rw [hlen]; exact rankPlace_lt hz hlt)
    (fun s h => ⟨s * size, rankPlace_ex hz (hlen ▸ h)⟩) (fun p _ p' _ h => rankPlace_inj hz h)
    (fun p _ p' _ h => Int.ofNat.inj h)
  refine ⟨h1, fun p hlt l x hl hx => ?_, loadedOnce_of h1 h0 path hids⟩
  obtain ⟨l', h2, -, -, h4, h5⟩ := launchOn_some (servers := (List.range hosts).map fun h => addr (h * size))
    (p := rankPlace hosts size p) (by rw [hlen]; exact rankPlace_lt hz hlt)
  rw [hr p hlt, h2] at hl
  cases hl
  by_cases hm : p % size = 0
  · obtain ⟨a, ha, hb⟩ := h5 (p / size) (by simp only [rankPlace, if_pos hm])
    rw [hb] at hx
    cases hx
    have hd : p / size < hosts := (Nat.div_lt_iff_lt_mul hz).2 hlt
    simp only [List.getElem?_map, List.getElem?_range hd, Option.map_some, Option.some.injEq] at ha
    have e := Nat.div_add_mod p size
    rw [hm, Nat.add_zero, Nat.mul_comm] at e
    rw [e] at ha
    exact ha.symm
  · rw [h4 (by simp only [rankPlace, if_neg hm]; omega)] at hx
    cases hx

theorem findPlace_worker {env : Env} {tf : Option TfConfig} {o : Options} {workers : List Name} {p : Nat}
    (h : WorkerOf env tf o workers p) (ho : o.serverIdx = none) (hn : workers.Nodup) (he : [] ∉ workers) {w : Name}
    (hw : workers[p]? = some w) {i : Nat} (hi : (Files.sort workers)[i]? = some w) :
    ∃ o', findPlace env tf o = some (⟨indexAt (Files.sort workers) i, p, workers.length⟩, o') ∧ o'.servers = o.servers := by
  have hx : extractServerIndex workers p = some (some (indexAt (Files.sort workers) i), Files.sort workers) := by
    rw [extractServerIndex, hw, Option.map_some, indexLoop_at ((sort_perm workers).nodup_iff.2 hn) hi]
  have h1 : tryDdp env = some none := by simp only [tryDdp, h.ddp, fromRanks]
  have h2 : tryMpi env = some none := by
    simp only [tryMpi, h.mpi, h.horovod, Option.isSome_none, Bool.false_eq_true, if_false, fromRanks]
  rw [findPlace, ho]
  simp only [h1, h2, Option.bind_some]
  rcases h.told with ⟨h3, h4⟩ | ⟨h3, t, rfl, h4, h5, h6⟩
  · have h5 : tryTfArgs o = some (some ⟨indexAt (Files.sort workers) i, p, workers.length⟩, { o with workerHosts := Files.sort workers }) := by
      rw [tryTfArgs, h3]
      simp only [h4]
      cases workers with
      | nil => simp at hw
      | cons v vs =>
        dsimp only
        rw [if_neg (fun h : v = [] => he (h ▸ List.mem_cons_self)), hx]
        rfl
    rw [h5]
    exact ⟨_, rfl, rfl⟩
  · have h7 : tryTfArgs o = some (none, o) := by rw [tryTfArgs, h3]
    rw [h7]
    simp only [Option.bind_some, tryTfConfig, h4, if_true, h5, h6, hx, Option.map_some]
    exact ⟨_, rfl, rfl⟩

/-- Workers of a TensorFlow job and a list of as many servers as hosts: every server is started once, on the host with its
number in the order of the sorted workers, and every partition is loaded once. -/
theorem C74_workers_partial {workers : List Name} (hn : workers.Nodup) (he : [] ∉ workers) (hw : workers ≠ []) {env : Nat → Env}
    {tf : Nat → Option TfConfig} {o : Nat → Options} (hj : ∀ p < workers.length, WorkerOf (env p) (tf p) (o p) workers p)
    {servers : List Name} (ho : ∀ p, (o p).serverIdx = none ∧ (o p).servers = servers)
    (hs : servers.length = (hostsOf workers).length) (int : List Nat → Option Nat) (text : List Nat)
    (listing : Nat → List (Name × Int)) (path : String) {ids : List Nat} (hids : ids.Perm (List.range ids.length)) :
    let run := fun p => backend int text (env p) (tf p) (o p) (listing p)
    ServersOnce run workers.length servers ∧ LoadedOnce run workers.length path ids ∧
      ∀ p < workers.length, ∀ l x, run p = some l → l.server = some x →
        (hostsOf workers)[x.2.1]? = (workers[p]?).map host := by
  intro run
  have hperm := sort_perm workers
  have hsn : (Files.sort workers).Nodup := hperm.nodup_iff.2 hn
  have hlen : (Files.sort workers).length = workers.length := hperm.length_eq
  have hho : hostsOf workers = firstHosts (Files.sort workers) := rfl
  -- position of a worker after sorting
  have hpos : ∀ p : Nat, ∃ i : Nat, ∀ w, workers[p]? = some w → (Files.sort workers)[i]? = some w := by
    intro p
    cases h : workers[p]? with
    | none => exact ⟨0, fun _ h => by cases h⟩
    | some w =>
      have := hperm.mem_iff.2 (List.mem_of_getElem? h)
      obtain ⟨i, hi⟩ := List.mem_iff_getElem?.1 this
      exact ⟨i, fun _ h => by cases h; exact hi⟩
  obtain ⟨pos, hpos⟩ := Classical.axiomOfChoice hpos
  have h0 : servers ≠ [] := by
    intro h
    rw [h, hho] at hs
    have h1 : 0 < (Files.sort workers).length := by rw [hlen]; exact List.length_pos_iff.2 hw
    have h2 := indexAt_lt (l := Files.sort workers) 0
    have h3 : indexAt (Files.sort workers) 0 = 0 := by
      rw [indexAt, List.getElem?_eq_getElem h1]
      simp [firstHosts]
    simp at hs
    omega
  let place : Nat → Place := fun p => ⟨indexAt (Files.sort workers) (pos p), p, workers.length⟩
  have hget : ∀ p < workers.length, (Files.sort workers)[pos p]? = workers[p]? := by
    intro p hp
    rw [List.getElem?_eq_getElem hp]
    exact hpos p _ (List.getElem?_eq_getElem hp)
  have hinj : ∀ p < workers.length, ∀ p' < workers.length, pos p = pos p' → p = p' := by
    intro p hp p' hp' h
    have h1 := hget p hp
    rw [h, hget p' hp', List.getElem?_eq_getElem hp, List.getElem?_eq_getElem hp'] at h1
    exact ((List.getElem_inj hn).1 (by simpa using h1)).symm
  have hr : ∀ p < workers.length, run p = launchOn servers (place p) := by
    intro p hp
    obtain ⟨o', h1, h2⟩ := findPlace_worker (hj p hp) (ho p).1 hn he (List.getElem?_eq_getElem hp)
      (hpos p _ (List.getElem?_eq_getElem hp))
    show backend _ _ _ _ _ _ = _
    rw [backend, countServers_given int text (.inr (by rw [(ho p).2]; exact h0)), Option.bind_some, h1, Option.bind_some]
    dsimp only
    rw [launch_given (by rw [h2, (ho p).2]; exact h0), h2, (ho p).2]
  have hlt : ∀ p < workers.length, (place p).server < servers.length := by
    intro p _
    rw [hs, hho]
    exact indexAt_lt _
  have h1 : ServersOnce run workers.length servers := by
    refine serversOnce_of place hr hlt (fun s h => ?_) (fun p hp p' hp' h0 h => ?_) (fun p _ p' _ h => Int.ofNat.inj h)
    · obtain ⟨i, hi, hi'⟩ := indexAt_ex (l := Files.sort workers) (Files.sort workers).length (Nat.le_refl _) s
        (by rw [List.take_length, ← hho, ← hs]; exact h)
      obtain ⟨p, hp⟩ := List.mem_iff_getElem?.1 (hperm.mem_iff.1 (List.getElem_mem hi))
      obtain ⟨hp', -⟩ := List.getElem?_eq_some_iff.1 hp
      refine ⟨p, hp', ?_⟩
      have h2 := hpos p _ hp
      obtain ⟨h3, h4⟩ := List.getElem?_eq_some_iff.1 h2
      have : pos p = i := (List.getElem_inj hsn).1 h4
      show indexAt _ (pos p) = _
      rw [this, hi']
    · refine hinj p hp p' hp' ?_
      obtain ⟨s, hs'⟩ : ∃ s : Nat, (place p).server = s := ⟨(place p).server.toNat, by omega⟩
      exact indexAt_inj (s := s) hs' (by rw [← hs', h])
  refine ⟨h1, loadedOnce_of h1 h0 path hids, fun p hp l x hl hx => ?_⟩
  obtain ⟨l', h2, -, -, h4, h5⟩ := launchOn_some (hlt p hp)
  rw [hr p hp, h2] at hl
  cases hl
  by_cases hm : (place p).server < 0
  · rw [h4 hm] at hx; cases hx
  · obtain ⟨s, hs'⟩ : ∃ s : Nat, (place p).server = s := ⟨(place p).server.toNat, by omega⟩
    obtain ⟨a, -, hb⟩ := h5 s hs'
    rw [hb] at hx
    cases hx
    rw [hho, indexAt_host hs', hget p hp]

/-- Places given as arguments: they are used as they are. -/
theorem C74_given_partial {procs : Nat} {servers : List Name} (h0 : servers ≠ []) {o : Nat → Options} {idx rank : Nat → Int}
    (ho : ∀ p < procs, (o p).serverIdx = some (idx p) ∧ (o p).clientRank = some (rank p) ∧ (o p).servers = servers)
    (hlt : ∀ p < procs, idx p < servers.length) (hex : ∀ s : Nat, s < servers.length → ∃ p < procs, idx p = s)
    (hu : ∀ p < procs, ∀ p' < procs, 0 ≤ idx p → idx p = idx p' → p = p')
    (hk : ∀ p < procs, ∀ p' < procs, rank p = rank p' → p = p') (int : List Nat → Option Nat) (text : List Nat)
    (env : Nat → Env) (tf : Nat → Option TfConfig) (listing : Nat → List (Name × Int)) (path : String) {ids : List Nat}
    (hids : ids.Perm (List.range ids.length)) :
    let run := fun p => backend int text (env p) (tf p) (o p) (listing p)
    ServersOnce run procs servers ∧ LoadedOnce run procs path ids := by
  intro run
  have h1 : ServersOnce run procs servers := by
    refine serversOnce_of (fun p => ⟨idx p, rank p, servers.length⟩) (fun p hp => ?_) hlt hex hu hk
    obtain ⟨a1, a2, a3⟩ := ho p hp
    show backend _ _ _ _ _ _ = _
    rw [backend, countServers_given int text (.inr (by rw [a3]; exact h0)), Option.bind_some, findPlace, a1]
    dsimp only
    rw [a2, a3, if_pos (List.length_pos_iff.2 h0), Option.map_some, Option.bind_some, launch_given (by rw [a3]; exact h0), a3]
  exact ⟨h1, loadedOnce_of h1 h0 path hids⟩

theorem globMeta_ordered {α : Type} : ∀ {l : List (Nat × α)}, (l.Pairwise fun x y => nameLe (workerName x.1) (workerName y.1) = true) →
    globMeta l = l
  | [], _ => rfl
  | [x], _ => rfl
  | x :: y :: l, h => by
    have ih := globMeta_ordered (List.pairwise_cons.1 h).2
    have h1 := (List.pairwise_cons.1 h).1 y List.mem_cons_self
    show insertName x (globMeta (y :: l)) = _
    rw [ih, insertName, if_pos h1]

/-- At most ten processes: the order of the ranks is also the order of the file names. -/
theorem C74_alphabetical_partial {hosts size : Nat} (hh : 0 < hosts) (hz : 0 < size) (h10 : hosts * size ≤ 10) {env : Nat → Env}
    (hj : ∀ p < hosts * size, Job (env p) hosts size p) {o : Options} (ho : o.serverIdx = none) (hs : o.servers = [])
    (hn : o.numGe ≠ 0) (int : List Nat → Option Nat) (text : List Nat) (tf : Nat → Option TfConfig) (addr : Nat → Name)
    {place : Nat → Place} (hp : ∀ p < hosts * size, ∃ o', findPlace (env p) (tf p) o = some (place p, o'))
    {listing : Nat → List (Name × Int)}
    (hl : ∀ p < hosts * size, listing p =
      (globMeta ((List.range (hosts * size)).map fun q => (q, addressFile (addr q) (place q)))).map (·.2))
    (path : String) {ids : List Nat} (hids : ids.Perm (List.range ids.length)) :
    let run := fun p => backend int text (env p) (tf p) o (listing p)
    ServersOnce run (hosts * size) ((List.range hosts).map fun h => addr (h * size)) ∧
      OwnAddress run (hosts * size) addr ∧ LoadedOnce run (hosts * size) path ids := by
  refine C74_found_partial hh hz hj ho hs hn int text tf addr hp (fun p hlt => ?_) path hids
  rw [hl p hlt, globMeta_ordered, List.map_map]
  · rfl
  · have key : ∀ q < 10, ∀ q' < 10, q < q' → nameLe (workerName q) (workerName q') = true := by decide +kernel
    rw [List.pairwise_map]
    refine List.Pairwise.imp_of_mem ?_ (List.pairwise_lt_range (n := hosts * size))
    intro q q' h h' hlt
    rw [List.mem_range] at h h'
    exact key q (by omega) q' (by omega) hlt

/-- The host of an address `host:port` is what comes before the last colon. -/
theorem C74_host (h port : Name) (hp : 58 ∉ port) : host (h ++ 58 :: port) = h := by
  rw [host, if_pos (by simp), List.reverse_append, List.reverse_cons, List.append_assoc, List.dropWhile_append_of_pos]
  · simp
  · intro x hx
    rw [List.mem_reverse] at hx
    simp only [bne_iff_ne, ne_eq]
    rintro rfl
    exact hp hx

/-! What goes wrong. -/

/-- Variables of process `p` under torch. -/
def exDdp (hosts size p : Nat) : Env := fun v =>
  if v = "LOCAL_RANK" then some (p % size) else if v = "LOCAL_WORLD_SIZE" then some size
  else if v = "RANK" then some p else if v = "WORLD_SIZE" then some (hosts * size) else none

theorem exDdp_job (hosts size p : Nat) : Job (exDdp hosts size p) hosts size p := .ddp ⟨rfl, rfl, rfl, rfl⟩

def exAuto (n : Nat) : Options := ⟨none, none, n, [], none, []⟩

/-- A file without line breaks, as the converter writes it: without a number of servers and without a list of them no
process starts. -/
theorem C74_meta_refuted (int : List Nat → Option Nat) {text : List Nat} (ht : 10 ∉ text) (env : Env) (tf : Option TfConfig)
    {o : Options} (hn : o.numGe = 0) (hs : o.servers = []) (listing : List (Name × Int)) :
    backend int text env tf o listing = none := by
  have h1 : ∀ t : List Nat, 10 ∉ t → (readlines t).length ≤ 1 := by
    intro t
    induction t with
    | nil => intro _; simp [readlines]
    | cons c cs ih =>
      intro h
      rw [List.mem_cons, not_or] at h
      rw [readlines, if_neg (fun e => h.1 e.symm)]
      have := ih h.2
      cases hc : readlines cs with
      | nil => simp
      | cons l ls => rw [hc] at this; simpa using this
  rw [backend, countServers, if_pos ⟨hn, by rw [hs]; rfl⟩, List.getElem?_eq_none (by have := h1 text ht; omega)]
  rfl

/-- The file system may list the files in any order: two processes start their servers on each other's addresses. -/
theorem C74_order_refuted : ¬ ∀ (addr : Nat → Name) (listing : List (Name × Int)),
    listing.Perm ((List.range 2).map fun q => addressFile (addr q) (rankPlace 2 1 q)) →
    OwnAddress (fun p => backend (fun _ => none) [] (exDdp 2 1 p) none (exAuto 2) listing) 2 addr := by
  intro h
  have := h (fun q => [q]) [([1], 1), ([0], 0)] (by decide) 0 (by decide) ⟨some ([1], 0, 2), 0, [[1], [0]]⟩ ([1], 0, 2)
    (by decide +kernel) rfl
  exact absurd this (by decide)

/-- Even in the order of the names: with eleven processes the one with rank 2 starts its server on the address of the one
with rank 10. -/
theorem C74_sorted_refuted : ¬ ∀ (addr : Nat → Name) (listing : List (Name × Int)),
    listing = (globMeta ((List.range 11).map fun q => (q, addressFile (addr q) (rankPlace 11 1 q)))).map (·.2) →
    OwnAddress (fun p => backend (fun _ => none) [] (exDdp 11 1 p) none (exAuto 11) listing) 11 addr := by
  intro h
  have := h (fun q => [q]) _ rfl 2 (by decide)
    ⟨some ([10], 2, 11), 2, [[0], [1], [10], [2], [3], [4], [5], [6], [7], [8], [9]]⟩ ([10], 2, 11) (by decide +kernel) rfl
  exact absurd this (by decide)

/-- Variables of torch on two hosts with two and one processes. -/
def exUnequal (p : Nat) : Env := fun v =>
  if v = "LOCAL_RANK" then some (if p = 1 then 1 else 0) else if v = "LOCAL_WORLD_SIZE" then some (if p = 2 then 1 else 2)
  else if v = "RANK" then some p else if v = "WORLD_SIZE" then some 3 else none

/-- Hosts with different numbers of processes: the only process of the second host looks for a third server and fails, and
the second server is never started. -/
theorem C74_uneven_refuted : ¬ ∃ servers : List Name, servers.length = 2 ∧
    ServersOnce (fun p => backend (fun _ => none) [] (exUnequal p) none ⟨none, none, 0, servers, none, []⟩ []) 3 servers := by
  rintro ⟨servers, hs, h⟩
  obtain ⟨l, hl, -⟩ := h.starts 2 (by decide)
  match servers, hs with
  | [a, b], _ =>
    have : backend (fun _ => none) [] (exUnequal 2) none ⟨none, none, 0, [a, b], none, []⟩ [] = none := by rfl
    rw [this] at hl
    cases hl

/-- The options are changed by the first client: a second one made from them finds another place. -/
theorem C74_second_refuted : ¬ ∀ (o o' o'' : Options) (p p' : Place), findPlace (fun _ => none) none o = some (p, o') →
    findPlace (fun _ => none) none o' = some (p', o'') → p' = p := by
  intro h
  have := h ⟨none, none, 0, [[98], [97]], some 0, [[98, 58, 49], [97, 58, 49]]⟩ _ _ _ _ (by decide +kernel :
      findPlace (fun _ => none) none ⟨none, none, 0, [[98], [97]], some 0, [[98, 58, 49], [97, 58, 49]]⟩ =
        some (⟨1, 0, 2⟩, ⟨none, none, 0, [[98], [97]], some 0, [[97, 58, 49], [98, 58, 49]]⟩))
    (by decide +kernel :
      findPlace (fun _ => none) none ⟨none, none, 0, [[98], [97]], some 0, [[97, 58, 49], [98, 58, 49]]⟩ =
        some (⟨0, 0, 2⟩, ⟨none, none, 0, [[98], [97]], some 0, [[97, 58, 49], [98, 58, 49]]⟩))
  exact absurd this (by decide)

/-- Two tasks of TF_CONFIG that are not workers, next to one that is: they have the same rank. -/
theorem C74_roles_refuted (servers : List Name) : ¬ ServersOnce (fun p => backend (fun _ => none) [] (fun _ => none)
    (some ⟨p == 0, 0, [[97, 58, 49]]⟩) ⟨none, none, 1, servers, none, []⟩ []) 3 servers := by
  intro h
  have key : ∀ p, (p == 0) = false → backend (fun _ => none) [] (fun _ => none)
      (some ⟨p == 0, 0, [[97, 58, 49]]⟩) ⟨none, none, 1, servers, none, []⟩ [] =
      some ⟨none, -1, if servers.length > 0 then servers else readAddresses []⟩ := by
    intro p hp
    rw [hp]
    rfl
  exact absurd (h.ranks 1 (by decide) 2 (by decide) _ _ (key 1 rfl) (key 2 rfl) rfl) (by decide)

/-- A file left by an earlier job with one more host: its address is in the list of servers, and nobody starts it. -/
theorem C74_stale_refuted : ¬ ∃ servers, ServersOnce (fun p => backend (fun _ => none) [] (exDdp 2 1 p) none (exAuto 2)
    [([0], 0), ([1], 1), ([9], 2)]) 2 servers := by
  rintro ⟨servers, h⟩
  have k0 : backend (fun _ => none) [] (exDdp 2 1 0) none (exAuto 2) [([0], 0), ([1], 1), ([9], 2)] =
      some ⟨some ([0], 0, 3), 0, [[0], [1], [9]]⟩ := by decide +kernel
  have k1 : backend (fun _ => none) [] (exDdp 2 1 1) none (exAuto 2) [([0], 0), ([1], 1), ([9], 2)] =
      some ⟨some ([1], 1, 3), 1, [[0], [1], [9]]⟩ := by decide +kernel
  obtain ⟨l, hl, hs⟩ := h.starts 0 (by decide)
  rw [k0] at hl
  cases hl
  obtain ⟨p, hp, l, hl, hx, -⟩ := h.once 2 [9] (by rw [← hs]; rfl)
  match p, hp with
  | 0, _ => rw [k0] at hl; cases hl; simp at hx
  | 1, _ => rw [k1] at hl; cases hl; simp at hx

/-! The hypotheses hold for concrete jobs. -/

/-- Two hosts with three processes, a list of two servers. -/
example : ServersOnce (fun p => backend (fun _ => none) [] (exDdp 2 3 p) none ⟨none, none, 0, [[97], [98]], none, []⟩ []) 6 [[97], [98]] :=
  (C74_ranks_partial (by decide) (by decide) (fun p _ => exDdp_job 2 3 p) rfl rfl _ _ _ _ "g" (ids := [1, 0]) (by decide)).1

/-- The same job without a list. -/
example : OwnAddress (fun p => backend (fun _ => none) [] (exDdp 2 3 p) none (exAuto 2)
    ((List.range 6).map fun q => addressFile [q] (rankPlace 2 3 q))) 6 (fun q => [q]) :=
  (C74_found_partial (hosts := 2) (size := 3) (by decide) (by decide) (fun p _ => exDdp_job 2 3 p) rfl rfl (by decide) _ _ _ _
    (place := rankPlace 2 3) (fun p _ => ⟨_, findPlace_ranks (by decide) (exDdp_job 2 3 p) _ rfl⟩) (fun _ _ => rfl)
    "g" (ids := [1, 0]) (by decide)).2.1

/-- Three workers on two hosts, not in order; the second starts no server. -/
def exHosts3 : List Name := [[98, 58, 49], [97, 58, 50], [97, 58, 49]]

example : hostsOf exHosts3 = [[97], [98]] := by decide +kernel

example : ServersOnce (fun p => backend (fun _ => none) [] (fun _ => none) none ⟨none, none, 0, [[5], [6]], some p, exHosts3⟩ []) 3
    [[5], [6]] :=
  (C74_workers_partial (workers := exHosts3) (by decide) (by decide) (by decide) (env := fun _ _ => none) (tf := fun _ => none)
    (o := fun p => ⟨none, none, 0, [[5], [6]], some p, exHosts3⟩) (fun p _ => ⟨rfl, rfl, rfl, .inl ⟨rfl, rfl⟩⟩)
    (fun _ => ⟨rfl, rfl⟩) (by decide +kernel) _ _ _ "g" (ids := [1, 0]) (by decide)).1

example : (List.range 3).map (fun p => (backend (fun _ => none) [] (fun _ => none) none
    ⟨none, none, 0, [[5], [6]], some p, exHosts3⟩ []).map (·.server)) =
    [some (some ([6], 1, 2)), some none, some (some ([5], 0, 2))] := by decide +kernel

end DeepGNN
