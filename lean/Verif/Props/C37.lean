import Verif.Proofs.Synchronized

/-
C37: clients start after all servers and servers stop after all clients.
-/

namespace DeepGNN

open Synchronized

/-- C37, connecting (partial: the folder must be empty at the start): in every run of any number of servers and clients, when a client
connects every server has been created, and has announced itself. -/
theorem C37_connect_partial {n m : Nat} {pre post : List Act} {r : Nat} {s : State}
    (h : run n (init n m []) (pre ++ .connect r :: post) = some s) : ∀ i, i < n → Act.create i ∈ pre ∧ Act.post i ∈ pre := by
  intro i hi
  rw [run_append, Option.bind_eq_some_iff] at h
  obtain ⟨u, h1, h2⟩ := h
  have hinv := serverInv_run (serverInv_init n m) h1
  rw [run, Option.bind_eq_some_iff] at h2
  obtain ⟨v, h3, -⟩ := h2
  rw [exec] at h3
  split at h3
  · rename_i seen hk
    split at h3
    · rename_i hall
      rw [List.all_eq_true] at hall
      have := hall i (List.mem_range.2 hi)
      exact hinv.seen r seen hk i (by simpa using this)
    · cases h3
  · cases h3

/-- C37, stopping (partial: a client may still appear between the last look and the stop): when a server stops and its wait has not timed
out, there was a moment after it was asked to stop at which every client begun until then had been closed. -/
theorem C37_stop_partial {n m : Nat} {files : List Nat} {pre post : List Act} {i : Nat} {s : State}
    (h : run n (init n m files) (pre ++ .stop i :: post) = some s) (ht : Act.timeout i ∉ pre) :
    ∃ u v, pre = u ++ Act.look i :: v ∧ Act.ask i ∈ u ∧ ∀ r, Act.begin r ∈ u → Act.close r ∈ u := by
  rw [run_append, Option.bind_eq_some_iff] at h
  obtain ⟨u, h1, h2⟩ := h
  have hinv := clientInv_run (clientInv_init n m files) h1
  rw [run, Option.bind_eq_some_iff] at h2
  obtain ⟨v, h3, -⟩ := h2
  rw [exec] at h3
  split at h3
  · rename_i hk
    exact hinv.looked i (Or.inl hk) ht
  · cases h3

/-- So every client that exists when the server is asked to stop has been closed before it stops. -/
theorem C37_clients {n m : Nat} {files : List Nat} {a b post : List Act} {i : Nat} {s : State}
    (h : run n (init n m files) (a ++ .ask i :: (b ++ .stop i :: post)) = some s) (ht : Act.timeout i ∉ b) {r : Nat}
    (hr : Act.begin r ∈ a) : Act.close r ∈ a ++ b := by
  have hpre : a ++ Act.ask i :: (b ++ Act.stop i :: post) = (a ++ Act.ask i :: b) ++ Act.stop i :: post := by simp
  rw [hpre] at h
  have h0 := h
  rw [run_append, Option.bind_eq_some_iff] at h0
  obtain ⟨w, h1, -⟩ := h0
  have hinv := clientInv_run (clientInv_init n m files) h1
  rw [List.nil_append] at hinv
  have hta : Act.timeout i ∉ a := by
    intro hx
    rw [run_append, Option.bind_eq_some_iff] at h1
    obtain ⟨w', h2, h3⟩ := h1
    rw [run, Option.bind_eq_some_iff] at h3
    obtain ⟨w'', h4, -⟩ := h3
    have hi' := clientInv_run (clientInv_init n m files) h2
    rw [exec] at h4
    split at h4
    · rename_i hk
      have h5 := hi'.idle i hk
      rw [List.nil_append] at h5
      obtain ⟨c, d, rfl⟩ := List.append_of_mem hx
      rw [run_append, Option.bind_eq_some_iff] at h2
      obtain ⟨x, h6, h7⟩ := h2
      rw [run, Option.bind_eq_some_iff] at h7
      obtain ⟨y, h8, -⟩ := h7
      have hc := clientInv_run (clientInv_init n m files) h6
      rw [exec] at h8
      split at h8
      · rename_i hkk
        exact h5 (List.mem_append_left _ (hc.waits i hkk))
      · cases h8
    · cases h4
  obtain ⟨u, v, h2, h3, h4⟩ := C37_stop_partial h (by
    simp only [List.mem_append, List.mem_cons, not_or]
    exact ⟨hta, by simp, ht⟩)
  have hcount := hinv.once i
  have hmem : Act.begin r ∈ u ∧ ∀ x ∈ u, x ∈ a ++ Act.ask i :: b := by
    refine ⟨?_, fun x hx => by rw [h2]; exact List.mem_append_left _ hx⟩
    rcases List.append_eq_append_iff.1 h2 with ⟨c, hc, _⟩ | ⟨c, hc, hd⟩
    · rw [hc]; exact List.mem_append_left _ hr
    · exfalso
      rw [List.count_append, List.count_cons_self] at hcount
      have : 0 < a.count (Act.ask i) := List.count_pos_iff.2 (by rw [hc]; exact List.mem_append_left _ h3)
      omega
  have := hmem.2 _ (h4 r hmem.1)
  simp only [List.mem_append, List.mem_cons] at this ⊢
  rcases this with h5 | h5 | h5
  · exact Or.inl h5
  · cases h5
  · exact Or.inr h5

/-- A server that waits can stop as soon as all clients are closed. -/
theorem C37_released {n : Nat} {s : State} {i : Nat} (hp : s.parents[i]? = some .waiting) (hc : s.clientFiles = []) :
    ∃ t, run n s [.look i, .stop i] = some t := by
  have hlt : i < s.parents.length := by
    rcases Nat.lt_or_ge i s.parents.length with h2 | h2
    · exact h2
    · rw [List.getElem?_eq_none h2] at hp; cases hp
  exact ⟨{ s with parents := (s.parents.set i .cleared).set i .stopped }, by
    rw [run, exec, if_pos hp, if_pos hc, Option.bind_some, run, exec, if_pos (by simp [hlt])]
    rfl⟩

/-- A client that waits can connect as soon as all servers have announced themselves and none has been taken down. -/
theorem C37_connects {n m : Nat} {files : List Nat} {acts : List Act} {s : State} {r : Nat} {seen : List Nat}
    (h : run n (init n m files) acts = some s) (hc : s.clients[r]? = some (.opened seen))
    (hp : ∀ i, i < n → Act.post i ∈ acts ∧ Act.unlist i ∉ acts) :
    ∃ t, run n s ((List.range n).map (Act.see r) ++ [.connect r]) = some t := by
  have hf : ∀ i, i < n → i ∈ s.serverFiles := fun i hi => posted_run h (hp i hi).1 (hp i hi).2
  obtain ⟨t, h1, seen', h2, h3, -⟩ := see_all hc (l := List.range n) (fun i hi => ⟨List.mem_range.1 hi, hf i (List.mem_range.1 hi)⟩)
  refine ⟨{ t with clients := t.clients.set r .connected }, ?_⟩
  rw [run_append, h1, Option.bind_some, run, exec]
  simp only [h2]
  rw [if_pos (List.all_eq_true.2 fun i hi => by simpa using h3 i hi)]
  rfl

/-- The servers have announced themselves in any order, client 1 has found none of them: it can connect. -/
example : (run 2 (init 2 2 []) [.create 1, .begin 1, .post 1, .create 0, .post 0]).map (·.clients[1]?) = some (some (.opened [])) ∧
    (run 2 (init 2 2 []) ([.create 1, .begin 1, .post 1, .create 0, .post 0] ++ ((List.range 2).map (Act.see 1) ++ [.connect 1]))).isSome := by
  decide +kernel

/-- Two servers and two clients; the runs of the theorems exist, and a server does not stop too early. -/
example : (run 2 (init 2 2 []) [.create 0, .begin 1, .post 0, .see 1 0, .create 1, .post 1, .begin 0, .see 1 1, .connect 1, .ask 0, .look 0,
      .see 0 1, .close 0, .look 0, .close 1, .look 0, .stop 0, .unlist 0]).isSome ∧
    run 2 (init 2 2 []) [.create 0, .begin 1, .post 0, .see 1 0, .connect 1] = none ∧
    run 2 (init 2 2 []) [.create 0, .begin 1, .post 0, .ask 0, .look 0, .stop 0] = none := by
  decide +kernel

/-- The full claim fails: a client that begins between the last look and the stop connects, and its server stops. -/
theorem C37_race_refuted : ∃ (pre : List Act) (s : State), run 1 (init 1 1 []) (pre ++ [.stop 0]) = some s ∧ Act.timeout 0 ∉ pre ∧
    s.clientFiles = [0] ∧ s.clients = [.connected] ∧ s.parents = [.stopped] :=
  ⟨[.create 0, .post 0, .ask 0, .look 0, .begin 0, .see 0 0, .connect 0], ⟨[0], [0], [.ready], [.stopped], [.connected]⟩,
    by decide +kernel, by decide, rfl, rfl, rfl⟩

/-- A server that is asked to stop before its process has written the lock file leaves the file behind, and a client that begins later
connects to it. -/
theorem C37_early_stop_refuted : ∃ s, run 1 (init 1 1 []) ([.create 0, .ask 0, .look 0, .stop 0, .post 0] ++
    [.begin 0, .see 0 0, .connect 0]) = some s ∧ s.parents = [.stopped] ∧ s.clients = [.connected] ∧
    run 1 (init 1 1 []) [.create 0, .ask 0, .look 0, .stop 0, .unlist 0] = none :=
  ⟨⟨[0], [0], [.ready], [.stopped], [.connected]⟩, by decide +kernel, rfl, rfl, by decide +kernel⟩

/-- With a lock file left from before, a client connects although no server was created. -/
theorem C37_stale_refuted : ∃ s, run 1 (init 1 1 [0]) [.begin 0, .see 0 0, .connect 0] = some s ∧ s.children = [.none] ∧
    s.clients = [.connected] :=
  ⟨⟨[0], [0], [.none], [.idle], [.connected]⟩, by decide +kernel, rfl, rfl⟩

end DeepGNN
