import Verif.Proofs.ServerCalls

/-
C71 A server answers every request once.
-/

namespace DeepGNN

open Calls

variable {ρ α σ : Type} {svc : σ → Method → ρ → σ × α × Status} {σ0 : σ} {Q : Nat}

/-- Whatever the service, the number of queues, the requests and the order in which threads and the runtime act: no
freed call object is used and no call is registered on a closed queue. -/
theorem C71_safe (acts : List (Action ρ)) (s : State ρ α σ) (h : run svc Q (init σ0 Q) acts = some s) : s.bad = false :=
  (inv_reach h).bad

/-- The replies sent so far are those of the service called with different requests of the clients, one after the
other. The status is that of the service, except for the calls that always report success. -/
theorem C71_answers_partial (acts : List (Action ρ)) (s : State ρ α σ) (h : run svc Q (init σ0 Q) acts = some s) :
    ∃ reqs : List (Req ρ), (reqs.map (·.id)).Nodup ∧
      (∀ r ∈ reqs, (Spec.sentRequests acts)[r.id]? = some (r.method, r.payload)) ∧
      s.replies = (Spec.sequential svc σ0 reqs).map fun x =>
        (x.1, x.2.1, if x.1.method ∈ Spec.silent then 0 else x.2.2) := by
  have hs := inv_reach h
  refine ⟨s.replies.map (·.1), ?_, ?_, ?_⟩
  · rw [List.map_map]; exact hs.replies_nodup
  · intro r hr
    rw [← reach_arrived h, List.getElem?_map, hs.arrived_get (hs.known r (Or.inr (Or.inr hr)))]
    rfl
  · conv => lhs; rw [hs.log]
    exact List.map_congr_left fun x _ => sentStatus_eq x

/-- Before the shutdown the server never gets stuck: when no thread and no delivery can go on, every request of the
clients was answered, once. -/
theorem C71_complete (hQ : 0 < Q) (acts : List (Action ρ)) (s : State ρ α σ)
    (h : run svc Q (init σ0 Q) acts = some s) (hsh : s.shutdown = false)
    (hd : ∀ k i, step svc Q s (.deliver k i) = none) (ht : ∀ e, step svc Q s (.take e) = none)
    (hv : ∀ q k, step svc Q s (.serve q k) = none) :
    (s.replies.map fun x => (x.1.method, x.1.payload)).Perm (Spec.sentRequests acts) := by
  have hs := inv_reach h
  obtain ⟨h1, h2⟩ := hs.quiet hQ hsh hd ht hv
  have hp := hs.perm
  rw [h1, h2, List.append_nil, List.append_nil] at hp
  have := hp.map (fun r : Req ρ => (r.method, r.payload))
  rw [List.map_map, reach_arrived h] at this
  exact this

/-- After the shutdown, when nothing more can happen, all threads ended, all call objects are freed, and every request
that was handed to a call object was answered, once. -/
theorem C71_shutdown (acts : List (Action ρ)) (s : State ρ α σ) (h : run svc Q (init σ0 Q) acts = some s)
    (hsh : s.shutdown = true) (hn : ∀ a, step svc Q s a = none) :
    (∀ q < Q, q ∈ s.exited) ∧ (∀ k, s.heap k = none) ∧
    ((s.replies.map fun x => (x.1.method, x.1.payload)) ++ s.pending.map fun r => (r.method, r.payload)).Perm
      (Spec.sentRequests acts) := by
  have hs := inv_reach h
  obtain ⟨h1, h2, h3⟩ := hs.finished hsh hn
  refine ⟨h3, h1, ?_⟩
  have hp := hs.perm
  rw [h2, List.append_nil] at hp
  have := hp.map (fun r : Req ρ => (r.method, r.payload))
  rw [List.map_append, List.map_map, reach_arrived h] at this
  exact this

/-- There is no endless activity: with `n` requests no history is longer than `31 Q + 2 + 6 n`. With the two theorems
above every request is answered whatever the order of actions, and every shutdown comes to an end. -/
theorem C71_bounded (acts : List (Action ρ)) (s : State ρ α σ) (h : run svc Q (init σ0 Q) acts = some s) :
    acts.length ≤ 31 * Q + 2 + 6 * (Spec.sentRequests acts).length := by
  have h1 := work_run (init_facts svc σ0 Q).1 h
  rw [work_init σ0 Q svc] at h1
  omega

/-- A service that counts its calls and fails with the status 9. -/
def C71_service : Nat → Method → String → Nat × Nat × Status := fun n _ _ => (n + 1, n, 9)

/-- Two requests served by one thread. -/
def C71_history : List (Action String) :=
  [.arrive .getNeighbors "a", .arrive .create "b", .deliver 13 1, .deliver 0 0, .take (0, 0, true), .serve 0 0,
   .take (0, 13, true), .sent 0 true, .serve 0 13, .take (0, 0, true), .sent 13 false, .take (0, 13, false)]

example : ((run C71_service 1 (init 0 1) C71_history).map fun s => s.replies.map fun x => (x.1.id, x.1.method, x.2)) =
    some [(0, .getNeighbors, 0, 9), (1, .create, 1, 0)] := by decide +kernel

/-- Then the server waits. -/
example : ((run C71_service 1 (init 0 1) C71_history).map fun s =>
    [s.pending.length, s.events.length, s.running.length, s.finishing.length]) = some [0, 0, 0, 0] := by decide +kernel

/-- The end of the server: every waiting call is failed and freed. -/
def C71_end : List (Action String) :=
  [.shutdown] ++ ((List.range 17).drop 1 |>.filter (· ≠ 13)).flatMap (fun k => [.cancel k, .take (0, k, false)]) ++
  [.close, .exit 0]

example : ((run C71_service 1 (init 0 1) (C71_history ++ C71_end)).map fun s =>
    (s.replies.length, s.registered, s.exited, (List.range 20).all fun k => (s.heap k).isNone)) = some (2, [], [0], true) := by
  decide +kernel

/-- **Refuted**: the client does not learn that `create` (and `sample`, and the features of edges) failed
(call_data.cc:407-409). The service fails with status 9, the client sees 0. -/
theorem C71_status_refuted : ∃ s, run C71_service 1 (init 0 1) C71_history = some s ∧
    ∃ x ∈ s.replies, x.2.2 = 0 ∧ ∀ n m p, (C71_service n m p).2.2 = 9 := by
  have : ∃ s, run C71_service 1 (init 0 1) C71_history = some s ∧ (s.replies.any fun x => x.2.2 == 0) = true := by
    have h : ((run C71_service 1 (init 0 1) C71_history).map fun s => s.replies.any fun x => x.2.2 == 0) = some true := by
      decide +kernel
    obtain ⟨s, hs, h⟩ := Option.map_eq_some_iff.1 h
    exact ⟨s, hs, h⟩
  obtain ⟨s, hs, h⟩ := this
  obtain ⟨x, hx, h0⟩ := List.any_eq_true.1 h
  exact ⟨s, hs, x, hx, by simpa using h0, fun _ _ _ => rfl⟩

/-- Without a thread nothing is answered: `std::thread::hardware_concurrency()` may return 0 (server.cc:160), then
there are no queues. -/
theorem C71_no_queue_refuted : ∃ s, run C71_service 0 (init 0 0) [.arrive .sample "a"] = some s ∧ s.shutdown = false ∧
    (∀ k i, step C71_service 0 s (.deliver k i) = none) ∧ (∀ e, step C71_service 0 s (.take e) = none) ∧
    (∀ q k, step C71_service 0 s (.serve q k) = none) ∧ s.replies = [] :=
  ⟨_, rfl, rfl, fun _ _ => rfl, fun e => by simp [step, init], fun q k => by simp [step, init], rfl⟩

end DeepGNN
