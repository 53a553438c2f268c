import Verif.Proofs.Remote
import Verif.Spec.RemoteFeatures

namespace DeepGNN

open Spec

/-- The reply merged by a callback. -/
def runOf {ρ : Type} (rs : List ρ) : Ev ρ → Option (ρ × Nat)
  | .run i => (rs[i]?).map fun r => (r, i)
  | .recv _ _ => none

theorem filterMap_runOf {ρ : Type} (rs : List ρ) (l : List (ρ × Nat)) (h : ∀ x ∈ l, rs[x.2]? = some x.1) :
    (l.flatMap fun x => [Ev.recv x.2 x.1, Ev.run x.2]).filterMap (runOf rs) = l := by
  induction l with
  | nil => rfl
  | cons x l ih =>
    have h1 : (runOf rs (Ev.recv x.2 x.1)) = none := rfl
    have h2 : (runOf rs (Ev.run x.2)) = some x := by simp [runOf, h x (by simp)]
    rw [List.flatMap_cons, List.filterMap_append, ih (fun y hy => h y (by simp [hy])), List.filterMap_cons_none h1,
      List.filterMap_cons_some h2]
    rfl

theorem eachReply_foldl {ρ α : Type} (cb : Nat → ρ → α → Option α) (rs : List ρ) (evs : List (Ev ρ))
    (hev : ∀ i r, Ev.recv i r ∈ evs → rs[i]? = some r) (s : EachReply ρ α) (hl : s.replies.length = rs.length)
    (hr : ∀ a i b, evs = a ++ Ev.run i :: b → (s.replies[i]? = rs[i]? ∨ ∃ r, Ev.recv i r ∈ a) ∧ i < rs.length) :
    (evs.foldl (EachReply.step cb) s).out =
      s.out.bind fun a => (evs.filterMap (runOf rs)).foldlM (fun a x => cb x.2 x.1 a) a := by
  induction evs generalizing s with
  | nil => simp
  | cons e evs ih =>
    rw [List.foldl_cons]
    cases e with
    | run j =>
      obtain ⟨h1, h2⟩ := hr [] j evs rfl
      have h1 : s.replies[j]? = rs[j]? := by simpa using h1
      have h3 : runOf rs (Ev.run j) = some (rs[j], j) := by simp [runOf, h2]
      rw [ih (fun i r hr => hev i r (by simp [hr])) _ (by simpa [EachReply.step] using hl), List.filterMap_cons_some h3]
      · simp only [EachReply.step, h1, List.getElem?_eq_getElem h2, Option.bind_some, List.foldlM_cons]
        cases s.out <;> simp
      · intro a i b h
        obtain ⟨h4, h5⟩ := hr (Ev.run j :: a) i b (by rw [h]; rfl)
        refine ⟨?_, h5⟩
        simpa [EachReply.step] using h4
    | recv j r =>
      have hj := hev j r (by simp)
      have h3 : runOf rs (Ev.recv j r) = none := rfl
      rw [ih (fun i r hr => hev i r (by simp [hr])) _ (by simpa [EachReply.step] using hl), List.filterMap_cons_none h3]
      · rfl
      · intro a i b h
        obtain ⟨h4, h5⟩ := hr (Ev.recv j r :: a) i b (by rw [h]; rfl)
        refine ⟨?_, h5⟩
        simp only [EachReply.step]
        by_cases hij : j = i
        · subst hij
          left
          rw [List.getElem?_set_self (by omega), hj]
        · rw [List.getElem?_set_ne hij]
          rcases h4 with h4 | ⟨r', h4⟩
          · exact Or.inl h4
          · simp only [List.mem_cons, Ev.recv.injEq] at h4
            rcases h4 with ⟨h4, -⟩ | h4
            · exact absurd h4.symm hij
            · exact Or.inr ⟨r', h4⟩

theorem eachReply_replies {ρ α : Type} (cb : Nat → ρ → α → Option α) (evs : List (Ev ρ)) (s : EachReply ρ α)
    (t : WaitAll ρ Unit) (h : s.replies = t.replies) :
    (evs.foldl (EachReply.step cb) s).replies = (evs.foldl (WaitAll.step fun _ => ()) t).replies := by
  induction evs generalizing s t with
  | nil => exact h
  | cons e evs ih =>
    rw [List.foldl_cons, List.foldl_cons]
    apply ih
    cases e with
    | run j => simp only [EachReply.step, WaitAll.step]; split <;> exact h
    | recv j r => simp only [EachReply.step, WaitAll.step, h]

/-- The callbacks merge all replies one after the other in an order given by the events, and at the end all replies are known. -/
theorem eachReply_order {ρ α : Type} (cb : Nat → ρ → α → Option α) (empty : ρ) (init : α) (rs : List ρ) (evs : List (Ev ρ))
    (h : Schedule rs evs) :
    (evs.filterMap (runOf rs)).Perm rs.zipIdx ∧
      (eachReply cb empty init rs.length evs).out = (evs.filterMap (runOf rs)).foldlM (fun a x => cb x.2 x.1 a) init ∧
      (eachReply cb empty init rs.length evs).replies = rs := by
  have hmem : ∀ e, e ∈ evs ↔ ∃ x ∈ rs.zipIdx, e = Ev.recv x.2 x.1 ∨ e = Ev.run x.2 := by
    intro e
    rw [h.once.mem_iff]
    simp [List.mem_flatMap]
  have hrecv : ∀ i r, Ev.recv i r ∈ evs → rs[i]? = some r := by
    intro i r hr
    obtain ⟨x, hx, h1 | h1⟩ := (hmem _).1 hr
    · simp only [Ev.recv.injEq] at h1
      obtain ⟨rfl, rfl⟩ := h1
      exact List.mem_zipIdx_iff_getElem?.1 hx
    · simp at h1
  have hperm : (evs.filterMap (runOf rs)).Perm rs.zipIdx := by
    have := h.once.filterMap (runOf rs)
    rwa [filterMap_runOf rs _ (fun x hx => List.mem_zipIdx_iff_getElem?.1 hx)] at this
  have hnd : ((evs.filterMap (runOf rs)).map (·.2)).Nodup := by
    rw [(hperm.map _).nodup_iff, List.zipIdx_map_snd]
    exact List.nodup_range'
  refine ⟨hperm, ?_, ?_⟩
  · rw [eachReply, eachReply_foldl cb rs evs hrecv _ (by simp)]
    · rfl
    · intro a i b hab
      obtain ⟨x, hx, h1 | h1⟩ := (hmem (Ev.run i)).1 (by rw [hab]; simp)
      · simp at h1
      · simp only [Ev.run.injEq] at h1
        subst h1
        have hi := List.mem_zipIdx_iff_getElem?.1 hx
        have hlt : x.2 < rs.length := (List.getElem?_eq_some_iff.1 hi).1
        refine ⟨Or.inr ⟨x.1, ?_⟩, hlt⟩
        have h2 := h.order x hx
        rw [hab] at h2
        refine mem_of_pair_sublist h2 ?_ (by simp)
        intro hb
        have h3 : runOf rs (Ev.run x.2) = some (rs[x.2], x.2) := by simp [runOf, hlt]
        rw [hab, List.filterMap_append, List.filterMap_cons_some h3, List.map_append, List.map_cons] at hnd
        have h4 := (List.nodup_cons.1 (List.nodup_append.1 hnd).2.1).1
        exact h4 (List.mem_map.2 ⟨_, List.mem_filterMap.2 ⟨_, hb, h3⟩, rfl⟩)
  · rw [eachReply, eachReply_replies cb evs _ { left := rs.length, replies := List.replicate rs.length empty, out := none } rfl]
    refine foldl_set_recv _ rs evs hrecv _ (by simp) ?_
    intro i
    by_cases hi : i < rs.length
    · exact Or.inr ⟨rs[i], (hmem _).2 ⟨(rs[i], i), List.mem_zipIdx_iff_getElem?.2 (by simp), Or.inl rfl⟩⟩
    · left
      rw [List.getElem?_eq_none_iff.2 (by simpa using hi), List.getElem?_eq_none_iff.2 (by omega)]

/-- The callbacks merge all replies one after the other in some order, and at the end all replies are known. -/
theorem eachReply_eq {ρ α : Type} (cb : Nat → ρ → α → Option α) (empty : ρ) (init : α) (rs : List ρ) (evs : List (Ev ρ))
    (h : Schedule rs evs) :
    ∃ order : List (ρ × Nat), order.Perm rs.zipIdx ∧
      (eachReply cb empty init rs.length evs).out = order.foldlM (fun a x => cb x.2 x.1 a) init ∧
      (eachReply cb empty init rs.length evs).replies = rs :=
  ⟨_, eachReply_order cb empty init rs evs h⟩

end DeepGNN
