import Verif.Proofs.DataParallel
import Verif.Props.C83
import Verif.Spec.HorovodTf

/-! C103: workers of a Horovod job with TensorFlow train one model. -/

namespace DeepGNN

open DeepGNN.DataParallel DeepGNN.Spec DeepGNN.HorovodTf

variable {P O D G : Type}

namespace HorovodTf

theorem zip_same {A B V : Type} : ∀ {own : List A} {data : List B}, own.length = data.length → ∀ (f : A → B → V) (g : V → V),
    (List.zipWith f own data).map g = List.zipWith (fun a b => g (f a b)) own data
  | [], _, _, _, _ => by simp
  | _ :: _, [], _, _, _ => by simp
  | a :: own, b :: data, h, f, g => by simp

theorem zip_right {A B V : Type} : ∀ {own : List A} {data : List B}, own.length = data.length → ∀ (f : B → V),
    List.zipWith (fun _ b => f b) own data = data.map f
  | [], [], _, _ => by simp
  | [], _ :: _, h, _ => by simp at h
  | _ :: _, [], h, _ => by simp at h
  | a :: own, b :: data, h, f => by simp [zip_right (by simpa using h) f]

theorem bound_eq {k : Nat} : ∀ {data : List (List D)}, (∀ ds ∈ data, ds.length = k) →
    actionBound (data.map fun ds => [ds]) = data.length * (6 * k + 3)
  | [], _ => by simp [actionBound]
  | a :: data, h => by
    have ih := bound_eq (data := data) (fun ds hd => h ds (by simp [hd]))
    have ha := h a (by simp)
    rw [actionBound] at ih ⊢
    rw [List.map_cons, List.map_cons, List.sum_cons, ih, show (a :: data).length = data.length + 1 from rfl, Nat.add_one_mul data.length]
    simp only [List.flatten_cons, List.flatten_nil, List.append_nil, List.length_cons, List.length_nil, ha]
    omega

theorem graphLaunch_eq {L : Learner P O D G} {s : P × O} {own : List (P × O)} {data : List (List D)}
    (hl : (s :: own).length = data.length) :
    graphLaunch L (s :: own) data = launch L (s.1 :: own.map (·.1)) s.2 (data.map fun ds => [ds]) := by
  rw [launch_get (by simpa using hl)]
  cases data with
  | nil => cases hl
  | cons ds data =>
    simp only [graphLaunch, List.zipWith_cons_cons, broadcastVariables, List.map_cons, List.cons.injEq, true_and]
    have hl : own.length = data.length := by simpa using hl
    rw [zip_same hl, List.map_map]
    exact zip_right hl fun ds => (⟨s.1, s.2, L.zero, 0, [ds], .ready⟩ : Worker P O D G)

theorem single_flatten (data : List (List D)) : (data.map fun ds => [ds]).map List.flatten = data := by
  rw [List.map_map]
  conv => rhs; rw [← List.map_id data]
  apply List.map_congr_left
  intro x _
  simp

end HorovodTf

/-- With graphs (`HorovodTFTrainer`): in every state that any schedule can reach, each worker holds exactly the parameters and the
optimizer state that one process has after as many steps with the joint batches, starting from those of rank 0. -/
theorem C103_graph_one_process {L : Learner P O D G} {s : P × O} {own : List (P × O)} {data : List (List D)}
    (hl : (s :: own).length = data.length) {acts : List Act} {ws : List (Worker P O D G)}
    (hr : run graphMode (unclipped L) acts (graphLaunch (unclipped L) (s :: own) data) = some ws) :
    (∀ w ∈ ws, oneProcess (unclipped L) data s.1 s.2 (updates w) = some (w.params, w.opt)) ∧
    (∀ v ∈ ws, ∀ w ∈ ws, updates v ≤ updates w + 1) := by
  rw [graphLaunch_eq hl] at hr
  have h := C83_one_process_partial (by simpa using hl) (.inl rfl) (fun h => by cases h) hr
  rwa [single_flatten] at h

/-- With graphs and as many batches for each worker: no schedule gets stuck or goes on for ever, and in the end all workers hold the
parameters of one process that has trained on all batches. -/
theorem C103_graph_finishes_partial {L : Learner P O D G} {s : P × O} {own : List (P × O)} {data : List (List D)}
    (hl : (s :: own).length = data.length) {k : Nat} (hk : ∀ ds ∈ data, ds.length = k) {acts : List Act} {ws : List (Worker P O D G)}
    (hr : run graphMode (unclipped L) acts (graphLaunch (unclipped L) (s :: own) data) = some ws) :
    acts.length ≤ data.length * (6 * k + 3) ∧
    ((∃ a ws', step graphMode (unclipped L) ws a = some ws') ∨
      (∀ w ∈ ws, Finished w) ∧ ws.length = data.length ∧
      ∀ w ∈ ws, oneProcess (unclipped L) data s.1 s.2 k = some (w.params, w.opt)) := by
  rw [graphLaunch_eq hl] at hr
  have hsame : SameCounts (data.map fun ds => [ds]) := by
    intro xs hx ys hy
    obtain ⟨a, ha, rfl⟩ := List.mem_map.1 hx
    obtain ⟨b, hb, rfl⟩ := List.mem_map.1 hy
    simp [hk a ha, hk b hb]
  obtain ⟨h1, h2⟩ := C83_finishes_partial (by simpa using hl) (.inl rfl) hsame hr
  constructor
  · rwa [bound_eq hk] at h1
  · rcases h2 with h2 | ⟨h2, h3, h4⟩
    · exact .inl h2
    · refine .inr ⟨h2, by simpa using h3, fun w hw => ?_⟩
      cases data with
      | nil => cases hl
      | cons ds data =>
        have := h4 w hw [ds] (by simp)
        rw [single_flatten] at this
        simpa [hk ds (by simp)] using this

/-- False with graphs if two workers have different numbers of batches: no schedule ends with all workers finished. -/
theorem C103_graph_uneven_refuted {L : Learner P O D G} {s : P × O} {own : List (P × O)} {data : List (List D)}
    (hl : (s :: own).length = data.length) {a b : List D} (ha : a ∈ data) (hb : b ∈ data) (hne : a.length ≠ b.length) {acts : List Act}
    {ws : List (Worker P O D G)}
    (hr : run graphMode (unclipped L) acts (graphLaunch (unclipped L) (s :: own) data) = some ws) :
    ∃ w ∈ ws, ¬ Finished w := by
  rw [graphLaunch_eq hl] at hr
  obtain ⟨hlen, R, shape, h⟩ := run_inv (.inl rfl) acts _ _ hr (launch_inv (by simpa using hl) (fun h => by cases h))
  apply Classical.byContradiction
  intro hc
  have hfin : ∀ w ∈ ws, Finished w := fun w hw => Classical.byContradiction fun hn => hc ⟨w, hw, hn⟩
  have hcount : ∀ ds ∈ data, ds.length = R := by
    intro ds hd
    obtain ⟨r, hr, e⟩ := List.getElem_of_mem hd
    have hrl : r < ws.length := by rw [hlen, List.length_map]; exact hr
    obtain ⟨es, he, hok⟩ := h r ws[r] (List.getElem?_eq_getElem hrl)
    rw [List.getElem?_map, List.getElem?_eq_getElem hr, Option.map_some, Option.some.injEq, e] at he
    subst he
    obtain ⟨f1, f2⟩ := hfin _ (List.getElem_mem hrl)
    have hph := hok.phase
    rw [Phase, f1] at hph
    have hleft := congrArg List.length hok.left
    rw [f2, hph.1] at hleft
    have hle := hok.le
    rw [hph.1] at hle
    simp at hleft hle
    omega
  exact hne ((hcount a ha).trans (hcount b hb).symm)

namespace HorovodTf

/-- A worker has left the epochs `pre` and has trained on `cur` of the one it is in. -/
def Place (es pre : List (List D)) (cur : List D) (todo : List (List D)) : Prop :=
  (es = pre ∧ cur = [] ∧ todo = []) ∨ ∃ left post, es = pre ++ (cur ++ left) :: post ∧ todo = left :: post

theorem Place.flatten {es pre todo : List (List D)} {cur : List D} (h : Place es pre cur todo) :
    (pre.flatten ++ cur) ++ todo.flatten = es.flatten := by
  rcases h with ⟨rfl, rfl, rfl⟩ | ⟨left, post, rfl, rfl⟩ <;> simp

/-- What is known of a worker: `root` is what rank 0 holds after its first batch. -/
def WorkerOk (L : Learner P O D G) (root s : P × O) (es : List (List D)) (w : Eager P O D) : Prop :=
  ∃ pre cur, Place es pre cur w.todo ∧
    match w.cast with
    | .first => pre.flatten ++ cur = [] ∧ (w.params, w.opt) = s
    | .waiting => ∃ d, pre.flatten ++ cur = [d] ∧ (w.params, w.opt) = trainAlone L s [d]
    | .done => ∃ d ds, pre.flatten ++ cur = d :: ds ∧ (w.params, w.opt) = trainAlone L root ds

theorem trainAlone_append (L : Learner P O D G) (s : P × O) (a b : List D) :
    trainAlone L s (a ++ b) = trainAlone L (trainAlone L s a) b := List.foldl_append

/-- What rank 0 holds after its first batch. -/
def rootOf (L : Learner P O D G) (s : P × O) (es : List (List D)) : P × O := trainAlone L s (es.flatten.take 1)

/-- Rank 0 trains alone. -/
theorem rank0 {L : Learner P O D G} {s : P × O} {es pre : List (List D)} {cur : List D} {w : Eager P O D}
    (hp : Place es pre cur w.todo) (h : match w.cast with
    | .first => pre.flatten ++ cur = [] ∧ (w.params, w.opt) = s
    | .waiting => ∃ d, pre.flatten ++ cur = [d] ∧ (w.params, w.opt) = trainAlone L s [d]
    | .done => ∃ d ds, pre.flatten ++ cur = d :: ds ∧ (w.params, w.opt) = trainAlone L (rootOf L s es) ds) :
    (w.params, w.opt) = trainAlone L s (pre.flatten ++ cur) := by
  have hf := hp.flatten
  split at h
  · rw [h.1, h.2]; rfl
  · obtain ⟨d, h1, h2⟩ := h
    rw [h1, h2]
  · obtain ⟨d, ds, h1, h2⟩ := h
    rw [h1] at hf ⊢
    rw [h2, rootOf, ← hf, List.cons_append, List.take_succ_cons, List.take_zero, ← trainAlone_append]
    rfl

theorem trainBatch_ok {L : Learner P O D G} {root s : P × O} {es : List (List D)} {w w' : Eager P O D} (h : WorkerOk L root s es w)
    (hb : trainBatch L w = some w') : WorkerOk L root s es w' := by
  obtain ⟨pre, cur, hp, hc⟩ := h
  obtain ⟨params, opt, todo, cast⟩ := w
  dsimp only at hp hc
  have step : ∀ d left post, todo = (d :: left) :: post → Place es pre (cur ++ [d]) (left :: post) := by
    intro d left post ht
    subst ht
    rcases hp with ⟨_, _, h⟩ | ⟨l, q, h1, h2⟩
    · cases h
    · obtain ⟨rfl, rfl⟩ := List.cons.inj h2
      exact .inr ⟨left, post, by simpa using h1, rfl⟩
  cases cast with
  | waiting => simp [trainBatch] at hb
  | first =>
    match todo, hb with
    | (d :: left) :: post, hb =>
      simp only [trainBatch, Option.some.injEq] at hb
      subst hb
      refine ⟨pre, cur ++ [d], step _ _ _ rfl, ?_⟩
      obtain ⟨h1, h2⟩ := hc
      refine ⟨d, by rw [← List.append_assoc, h1]; rfl, ?_⟩
      obtain ⟨e1, e2⟩ := Prod.mk.inj h2
      subst h2
      rfl
    | [] :: post, hb => simp [trainBatch] at hb
    | [], hb => simp [trainBatch] at hb
  | done =>
    match todo, hb with
    | (d :: left) :: post, hb =>
      simp only [trainBatch, Option.some.injEq] at hb
      subst hb
      refine ⟨pre, cur ++ [d], step _ _ _ rfl, ?_⟩
      obtain ⟨e, ds, h1, h2⟩ := hc
      refine ⟨e, ds ++ [d], by rw [← List.append_assoc, h1]; rfl, ?_⟩
      rw [trainAlone_append, ← h2]
      rfl
    | [] :: post, hb => simp [trainBatch] at hb
    | [], hb => simp [trainBatch] at hb

theorem leaveEpoch_ok {L : Learner P O D G} {root s : P × O} {es : List (List D)} {w w' : Eager P O D} (h : WorkerOk L root s es w)
    (hb : leaveEpoch w = some w') : WorkerOk L root s es w' ∧ w'.params = w.params ∧ w'.opt = w.opt ∧
      ∀ pre cur, Place es pre cur w.todo → ∃ pre', pre' <+: es ∧ pre'.flatten = pre.flatten ++ cur := by
  obtain ⟨params, opt, todo, cast⟩ := w
  have hb' : ∃ post, todo = [] :: post ∧ w' = ⟨params, opt, post, cast⟩ := by
    cases cast with
    | waiting => simp [leaveEpoch] at hb
    | first =>
      match todo, hb with
      | [] :: post, hb => exact ⟨post, rfl, by simpa [leaveEpoch] using hb.symm⟩
      | (d :: left) :: post, hb => simp [leaveEpoch] at hb
      | [], hb => simp [leaveEpoch] at hb
    | done =>
      match todo, hb with
      | [] :: post, hb => exact ⟨post, rfl, by simpa [leaveEpoch] using hb.symm⟩
      | (d :: left) :: post, hb => simp [leaveEpoch] at hb
      | [], hb => simp [leaveEpoch] at hb
  obtain ⟨post, rfl, rfl⟩ := hb'
  have hstep : ∀ pre cur, Place es pre cur ([] :: post) → es = (pre ++ [cur]) ++ post ∧ Place es (pre ++ [cur]) [] post := by
    intro pre cur hp
    rcases hp with ⟨_, _, h⟩ | ⟨l, q, h1, h2⟩
    · cases h
    · obtain ⟨rfl, rfl⟩ := List.cons.inj h2
      have he : es = (pre ++ [cur]) ++ post := by simpa using h1
      refine ⟨he, ?_⟩
      cases post with
      | nil => exact .inl ⟨by simpa using he, rfl, rfl⟩
      | cons a post => exact .inr ⟨a, post, by simpa using he, rfl⟩
  refine ⟨?_, rfl, rfl, fun pre cur hp => ⟨pre ++ [cur], ⟨post, (hstep pre cur hp).1.symm⟩, by simp⟩⟩
  obtain ⟨pre, cur, hp, hc⟩ := h
  refine ⟨pre ++ [cur], [], (hstep pre cur hp).2, ?_⟩
  have : (pre ++ [cur]).flatten ++ [] = pre.flatten ++ cur := by simp
  rw [this]
  exact hc

/-- What is known of a job. -/
def JobOk (L : Learner P O D G) (s : P × O) (own : List (P × O)) (es : List (List D)) (data : List (List (List D))) (j : Job P O D) : Prop :=
  (∀ (r : Nat) (w : Eager P O D), j.workers[r]? = some w → ∃ t es', (s :: own)[r]? = some t ∧ (es :: data)[r]? = some es' ∧
    WorkerOk L (rootOf L s es) t es' w) ∧
  ∀ x, j.saved = some x → ∃ pre, pre <+: es ∧ x = trainAlone L s pre.flatten

theorem jobOk_launch (L : Learner P O D G) (s : P × O) (own : List (P × O)) (es : List (List D)) (data : List (List (List D))) :
    JobOk L s own es data (eagerLaunch (s :: own) (es :: data)) := by
  refine ⟨fun r w hw => ?_, fun x hx => by cases hx⟩
  rw [eagerLaunch, List.getElem?_zipWith] at hw
  split at hw
  · rename_i a b ha hb
    rw [Option.some.injEq] at hw
    subst hw
    refine ⟨a, b, ha, hb, [], [], ?_, rfl, rfl⟩
    cases b with
    | nil => exact .inl ⟨rfl, rfl, rfl⟩
    | cons e b => exact .inr ⟨e, b, rfl, rfl⟩
  · cases hw

theorem jobOk_move {L : Learner P O D G} {s : P × O} {own : List (P × O)} {es : List (List D)} {data : List (List (List D))} {j j' : Job P O D}
    {a : Move} (h : JobOk L s own es data j) (hm : move L j a = some j') : JobOk L s own es data j' := by
  obtain ⟨h1, h2⟩ := h
  cases a with
  | batch r =>
    obtain ⟨w, hw, hm⟩ := Option.bind_eq_some_iff.1 hm
    obtain ⟨w', hb, rfl⟩ := Option.map_eq_some_iff.1 hm
    refine ⟨fun q v hv => ?_, h2⟩
    rw [List.getElem?_set] at hv
    split at hv
    · rename_i hq
      subst hq
      split at hv
      · rw [Option.some.injEq] at hv
        subst hv
        obtain ⟨t, es', e1, e2, e3⟩ := h1 r w hw
        exact ⟨t, es', e1, e2, trainBatch_ok e3 hb⟩
      · cases hv
    · exact h1 q v hv
  | epoch r =>
    obtain ⟨w, hw, hm⟩ := Option.bind_eq_some_iff.1 hm
    obtain ⟨w', hb, rfl⟩ := Option.map_eq_some_iff.1 hm
    obtain ⟨t, es', e1, e2, e3⟩ := h1 r w hw
    obtain ⟨k1, k2, k3, k4⟩ := leaveEpoch_ok e3 hb
    refine ⟨fun q v hv => ?_, fun x hx => ?_⟩
    · rw [List.getElem?_set] at hv
      split at hv
      · rename_i hq
        subst hq
        split at hv
        · rw [Option.some.injEq] at hv
          subst hv
          exact ⟨t, es', e1, e2, k1⟩
        · cases hv
      · exact h1 q v hv
    · dsimp only at hx
      split at hx
      · rename_i hr
        subst hr
        rw [Option.some.injEq] at hx
        subst hx
        rw [List.getElem?_cons_zero, Option.some.injEq] at e1 e2
        subst e1 e2
        obtain ⟨pre, cur, hp, hc⟩ := e3
        obtain ⟨pre', f1, f2⟩ := k4 pre cur hp
        refine ⟨pre', f1, ?_⟩
        rw [k2, k3, f2]
        exact rank0 hp hc
      · exact h2 x hx
  | broadcast =>
    obtain ⟨workers, saved⟩ := j
    cases workers with
    | nil => cases hm
    | cons w ws =>
      simp only [move] at hm
      split at hm
      · rename_i hall
        rw [Option.some.injEq] at hm
        subst hm
        rw [List.all_eq_true] at hall
        refine ⟨fun q v hv => ?_, h2⟩
        rw [List.getElem?_map] at hv
        obtain ⟨u, hu, rfl⟩ := Option.map_eq_some_iff.1 hv
        obtain ⟨t0, es0, e1, e2, pre0, cur0, hp0, hc0⟩ := h1 0 w rfl
        rw [List.getElem?_cons_zero, Option.some.injEq] at e1 e2
        subst e1 e2
        have hw : w.cast = .waiting := of_decide_eq_true (hall w (by simp))
        have huw : u.cast = .waiting := of_decide_eq_true (hall u (List.mem_of_getElem? hu))
        rw [hw] at hc0
        obtain ⟨d0, g1, g2⟩ := hc0
        have hroot : (w.params, w.opt) = rootOf L s es := by
          have hf := hp0.flatten
          rw [g1] at hf
          rw [g2, rootOf, ← hf]
          rfl
        obtain ⟨t, es', f1, f2, pre, cur, hp, hc⟩ := h1 q u hu
        rw [huw] at hc
        obtain ⟨d, i1, i2⟩ := hc
        exact ⟨t, es', f1, f2, pre, cur, hp, d, [], i1, hroot⟩
      · cases hm

theorem jobOk_moves {L : Learner P O D G} {s : P × O} {own : List (P × O)} {es : List (List D)} {data : List (List (List D))} :
    ∀ {acts : List Move} {j j' : Job P O D}, JobOk L s own es data j → moves L acts j = some j' → JobOk L s own es data j'
  | [], _, _, h, hm => by cases hm; exact h
  | a :: acts, _, _, h, hm => by
    obtain ⟨j1, e1, e2⟩ := Option.bind_eq_some_iff.1 hm
    exact jobOk_moves (jobOk_move h e1) e2

end HorovodTf

/-- False in eager mode (`HorovodEagerTrainer`): the optimizer is not a distributed one, so rank 0 always holds what it would hold if it
trained alone on its own batches, whatever the others do, -/
theorem C103_eager_root_refuted {L : Learner P O D G} {s : P × O} {own : List (P × O)} {es : List (List D)} {data : List (List (List D))}
    {acts : List Move} {j : Job P O D} (hm : moves L acts (eagerLaunch (s :: own) (es :: data)) = some j) {w : Eager P O D}
    (hw : j.workers[0]? = some w) :
    ∃ trained, trained ++ w.todo.flatten = es.flatten ∧ (w.params, w.opt) = trainAlone L s trained := by
  obtain ⟨t, es', e1, e2, pre, cur, hp, hc⟩ := (jobOk_moves (jobOk_launch L s own es data) hm).1 0 w hw
  rw [List.getElem?_cons_zero, Option.some.injEq] at e1 e2
  subst e1 e2
  exact ⟨_, hp.flatten, rank0 hp hc⟩

/-- and so does every checkpoint: it is that of the first epochs of rank 0 alone. -/
theorem C103_eager_saved_refuted {L : Learner P O D G} {s : P × O} {own : List (P × O)} {es : List (List D)} {data : List (List (List D))}
    {acts : List Move} {j : Job P O D} (hm : moves L acts (eagerLaunch (s :: own) (es :: data)) = some j) {x : P × O}
    (hx : j.saved = some x) : ∃ k, x = trainAlone L s (es.take k).flatten := by
  obtain ⟨pre, ⟨t, rfl⟩, hp⟩ := (jobOk_moves (jobOk_launch L s own es data) hm).2 x hx
  exact ⟨pre.length, by rw [List.take_left]; exact hp⟩

/-- The other workers start from what rank 0 holds after its first batch; their own first batch is lost and they train alone on the
others. -/
theorem C103_eager_others_refuted {L : Learner P O D G} {s : P × O} {own : List (P × O)} {es : List (List D)} {data : List (List (List D))}
    {acts : List Move} {j : Job P O D} (hm : moves L acts (eagerLaunch (s :: own) (es :: data)) = some j) {r : Nat} {w : Eager P O D}
    (hw : j.workers[r]? = some w) (hd : w.cast = .done) :
    ∃ es' d ds, (es :: data)[r]? = some es' ∧ d :: ds ++ w.todo.flatten = es'.flatten ∧
      (w.params, w.opt) = trainAlone L (trainAlone L s (es.flatten.take 1)) ds := by
  obtain ⟨t, es', e1, e2, pre, cur, hp, hc⟩ := (jobOk_moves (jobOk_launch L s own es data) hm).1 r w hw
  rw [hd] at hc
  obtain ⟨d, ds, h1, h2⟩ := hc
  refine ⟨es', d, ds, e2, ?_, h2⟩
  rw [← h1]
  exact hp.flatten

/-- Two workers with two batches each, to the end: they hold different parameters, neither is that of one process with the joint batches,
and the checkpoint is that of rank 0 alone. -/
theorem C103_eager_differ_refuted :
    (moves C83_learner [.batch 1, .batch 0, .broadcast, .batch 0, .epoch 0, .batch 1, .epoch 1]
      (eagerLaunch [(1, 0), (100, 0)] [[[5, 7]], [[6, 8]]])) =
      some ⟨[⟨7, 2, [], .done⟩, ⟨8, 2, [], .done⟩], some (7, 2)⟩ ∧
    oneProcess (unclipped C83_learner) [[5, 7], [6, 8]] 1 0 2 = some (5, 2) :=
  ⟨by decide +kernel, by decide +kernel⟩

/-- With graphs the same workers end with the parameters of one process. -/
example : (run graphMode (unclipped C83_learner)
      [.compute 1, .compute 0, .reduce, .clip 0, .apply 0, .clip 1, .compute 0, .apply 1, .compute 1, .reduce, .clip 1, .apply 1, .endEpoch 1,
        .clip 0, .apply 0, .endEpoch 0] (graphLaunch (unclipped C83_learner) [(1, 0), (100, 7)] [[5, 7], [6, 8]])).map
      (fun ws => ws.map fun w => (w.params, w.opt, w.pc, w.todo)) = some [(5, 2, .ready, []), (5, 2, .ready, [])] := by
  decide +kernel

/-- Workers with different numbers of batches: the second waits. -/
example : (run graphMode (unclipped C83_learner)
      [.compute 1, .compute 0, .reduce, .clip 0, .apply 0, .endEpoch 0, .clip 1, .apply 1, .compute 1]
      (graphLaunch (unclipped C83_learner) [(1, 0), (100, 7)] [[5], [6, 8]])).map
      (fun ws => ws.map fun w => (w.params, w.pc, w.todo)) = some [(10, .ready, []), (10, .sent false, [[]])] := by
  decide +kernel

end DeepGNN
