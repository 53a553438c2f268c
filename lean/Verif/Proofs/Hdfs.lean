import Verif.Model.Hdfs
import Verif.Spec.Hdfs

namespace DeepGNN.Stream

theorem take_append_take {α : Type} (l : List α) (a b : Nat) : l.take a ++ (l.drop a).take b = l.take (a + b) := by
  rw [List.take_add]

theorem hdfsRead_spec {file : Bytes} {reader : Reader} {k pos n : Nat} {out : Bytes} (h : hdfsRead file reader k pos n = some out) :
    out = (file.drop pos).take out.length ∧ out.length ≤ n := by
  rw [hdfsRead] at h
  split at h
  · exact absurd h (by simp)
  · obtain rfl := Option.some.inj h
    constructor
    · rw [List.length_take, List.take_eq_take_iff, List.length_drop]
      omega
    · rw [List.length_take]; omega

theorem connRead_spec {cap : Nat} {file : Bytes} {reader : Reader} : ∀ {fuel n : Nat} {h h' : Handle} {out : Bytes},
    connRead cap file reader fuel n h = some (out, h') →
      out = (file.drop h.pos).take n ∧ out.length = n ∧ h'.pos = h.pos + n
  | 0, n, h, h', out, e => by
    rw [connRead] at e
    split at e
    · exact absurd e (by simp)
    · obtain ⟨rfl, rfl⟩ := Prod.mk.inj (Option.some.inj e)
      have : n = 0 := by omega
      subst this; simp
  | fuel + 1, n, h, h', out, e => by
    rw [connRead] at e
    split at e
    · simp only at e
      generalize hc : min n cap = curr at e
      cases e1 : hdfsRead file reader h.calls h.pos curr with
      | none => rw [e1] at e; exact absurd e (by simp)
      | some first =>
        rw [e1, Option.bind_some] at e
        obtain ⟨f1, f2⟩ := hdfsRead_spec e1
        have step : ∀ (got : Bytes) (k : Nat), got = (file.drop h.pos).take got.length →
            ((if got.length ≠ curr then none
              else (connRead cap file reader fuel (n - curr) ⟨h.pos + curr, k⟩).map fun rest => (got ++ rest.1, rest.2)) =
                some (out, h')) → out = (file.drop h.pos).take n ∧ out.length = n ∧ h'.pos = h.pos + n := by
          intro got k hg e
          split at e
          · exact absurd e (by simp)
          · rename_i hl
            have hl : got.length = curr := by omega
            cases e3 : connRead cap file reader fuel (n - curr) ⟨h.pos + curr, k⟩ with
            | none => rw [e3] at e; exact absurd e (by simp)
            | some rest =>
              obtain ⟨r1, r2⟩ := rest
              rw [e3, Option.map_some] at e
              obtain ⟨rfl, rfl⟩ := Prod.mk.inj (Option.some.inj e)
              obtain ⟨i1, i2, i3⟩ := connRead_spec e3
              simp only at i1 i2 i3 ⊢
              refine ⟨?_, by rw [List.length_append]; omega, by omega⟩
              rw [hl] at hg
              conv => lhs; rw [hg, i1, ← List.drop_drop]
              rw [take_append_take]
              congr 1; omega
        by_cases h2 : first.length < curr
        · rw [if_pos h2] at e
          cases e2 : hdfsRead file reader (h.calls + 1) (h.pos + first.length) (curr - first.length) with
          | none => rw [e2] at e; exact absurd e (by simp)
          | some second =>
            rw [e2, Option.map_some, Option.bind_some] at e
            obtain ⟨g1, g2⟩ := hdfsRead_spec e2
            refine step (first ++ second) _ ?_ e
            rw [List.length_append, ← take_append_take, List.drop_drop, ← f1, ← g1]
        · rw [if_neg h2, Option.bind_some] at e
          exact step first _ f1 e
    · obtain ⟨rfl, rfl⟩ := Prod.mk.inj (Option.some.inj e)
      have : n = 0 := by omega
      subst this; simp

/-- A file system that may return fewer bytes than asked for, but not twice in a row. -/
def Reliable (reader : Reader) : Prop :=
  ∀ k n, 0 ≤ reader k n ∧ (reader k n < n → ((n : Int) - reader k n) ≤ reader (k + 1) (n - (reader k n).toNat))

theorem connRead_some {cap : Nat} (hcap : 0 < cap) {file : Bytes} {reader : Reader} (hr : Reliable reader) :
    ∀ {fuel n : Nat} {h : Handle}, n ≤ fuel → h.pos + n ≤ file.length → ∃ r, connRead cap file reader fuel n h = some r
  | 0, n, h, h1, h2 => by
    rw [connRead, if_neg (by omega)]; exact ⟨_, rfl⟩
  | fuel + 1, n, h, h1, h2 => by
    rw [connRead]
    split
    · simp only
      generalize hc : min n cap = curr
      have hcurr : 0 < curr ∧ curr ≤ n := by omega
      obtain ⟨r1, r2⟩ := hr h.calls curr
      have e1 : hdfsRead file reader h.calls h.pos curr = some ((file.drop h.pos).take (min curr (reader h.calls curr).toNat)) := by
        rw [hdfsRead, if_neg (by omega)]
      rw [e1, Option.bind_some]
      have hl : ((file.drop h.pos).take (min curr (reader h.calls curr).toNat)).length = min curr (reader h.calls curr).toNat := by
        rw [List.length_take, List.length_drop]; omega
      rw [hl]
      split
      · rename_i hs
        have hm : min curr (reader h.calls curr).toNat = (reader h.calls curr).toNat := by omega
        rw [hm]
        have r3 := r2 (by omega)
        have e2 : hdfsRead file reader (h.calls + 1) (h.pos + (reader h.calls curr).toNat) (curr - (reader h.calls curr).toNat) =
            some ((file.drop (h.pos + (reader h.calls curr).toNat)).take (curr - (reader h.calls curr).toNat)) := by
          rw [hdfsRead, if_neg (by omega)]
          congr 2
          omega
        rw [e2, Option.map_some, Option.bind_some]
        simp only
        rw [if_neg (by simp only [List.length_append, List.length_take, List.length_drop]; omega)]
        obtain ⟨r, hr'⟩ := connRead_some hcap (file := file) hr (fuel := fuel) (n := n - curr) (h := ⟨h.pos + curr, h.calls + 2⟩) (by omega)
          (by simp only; omega)
        rw [hr']; exact ⟨_, rfl⟩
      · rw [Option.bind_some]
        simp only
        rw [if_neg (by omega)]
        obtain ⟨r, hr'⟩ := connRead_some hcap (file := file) hr (fuel := fuel) (n := n - curr) (h := ⟨h.pos + curr, h.calls + 1⟩) (by omega)
          (by simp only; omega)
        rw [hr']; exact ⟨_, rfl⟩
    · exact ⟨_, rfl⟩

/-- After `d` bytes have been delivered. -/
structure Ok (cap : Nat) (file : Bytes) (d : Nat) (s : State) : Prop where
  length : s.buffer.length = cap
  room : s.bufferOffset ≤ cap
  pos : s.handle.pos = s.offset
  inside : s.offset ≤ file.length
  behind : d ≤ s.offset
  fits : s.offset - d ≤ cap - s.bufferOffset
  valid : (s.buffer.drop s.bufferOffset).take (s.offset - d) = (file.drop d).take (s.offset - d)
  full : s.offset < file.length → s.offset - d = cap - s.bufferOffset

theorem memcpyAt_front {front : Bytes} (buffer g : Bytes) {left : Nat} (h : front.length = left) :
    memcpyAt (front ++ buffer.drop left) left g = front ++ g ++ buffer.drop (left + g.length) := by
  subst h
  rw [memcpyAt, List.take_left, List.drop_append, List.drop_eq_nil_of_le (by omega), List.nil_append, List.drop_drop]
  congr 2; omega

theorem read_spec {cap : Nat} {file : Bytes} {reader : Reader} {d n : Nat} {s s' : State} {out : Bytes} (h : Ok cap file d s)
    (hn : d + n ≤ file.length) (e : read cap file reader n s = some (out, s')) :
    out = (file.drop d).take n ∧ Ok cap file (d + n) s' := by
  have i1 := h.inside; have i2 := h.behind; have i3 := h.fits; have i4 := h.full; have i5 := h.room
  rw [read] at e
  simp only at e
  split at e
  · rename_i hbig
    have hoff : s.offset < file.length := by
      rcases Nat.lt_or_ge s.offset file.length with h1 | h1
      · exact h1
      · omega
    have i6 := i4 hoff
    cases e1 : connRead cap file reader (n - (cap - s.bufferOffset)) (n - (cap - s.bufferOffset)) s.handle with
    | none => rw [e1] at e; exact absurd e (by simp)
    | some got =>
      obtain ⟨g1, g2⟩ := got
      rw [e1, Option.map_some] at e
      obtain ⟨rfl, rfl⟩ := Prod.mk.inj (Option.some.inj e)
      obtain ⟨c1, c2, c3⟩ := connRead_spec e1
      rw [h.pos] at c1 c3
      constructor
      · have hv := h.valid
        rw [i6] at hv
        simp only
        rw [hv, c1]
        have : s.offset = d + (cap - s.bufferOffset) := by omega
        conv => lhs; rw [this, ← List.drop_drop]
        rw [take_append_take]
        congr 1; omega
      · refine ⟨h.length, Nat.le_refl _, ?_, ?_, ?_, ?_, ?_, ?_⟩
        · simp only; omega
        · simp only; omega
        · simp only; omega
        · simp only; omega
        · simp only
          rw [show s.offset + (n - (cap - s.bufferOffset)) - (d + n) = 0 by omega]; simp
        · intro _; simp only; omega
  · rename_i hsmall
    split at e
    · exact absurd e (by simp)
    · rename_i hthrow
      split at e
      · rename_i hneed
        have hoff : s.offset < file.length := by
          rcases Nat.lt_or_ge s.offset file.length with h1 | h1
          · exact h1
          · exact absurd ⟨by omega, hneed⟩ hthrow
        have i6 := i4 hoff
        cases e1 : memcpyFront s.buffer s.bufferOffset (cap - s.bufferOffset) with
        | none => rw [e1] at e; exact absurd e (by simp)
        | some buffer =>
          rw [e1, Option.bind_some] at e
          rw [memcpyFront] at e1
          split at e1
          · exact absurd e1 (by simp)
          · obtain rfl := Option.some.inj e1
            generalize hrs : min s.bufferOffset (file.length - s.offset) = rs at e
            split at e
            · exact absurd e (by simp)
            · cases e2 : connRead cap file reader rs rs s.handle with
              | none => rw [e2] at e; exact absurd e (by simp)
              | some got =>
                obtain ⟨g1, g2⟩ := got
                rw [e2, Option.map_some] at e
                obtain ⟨rfl, rfl⟩ := Prod.mk.inj (Option.some.inj e)
                obtain ⟨c1, c2, c3⟩ := connRead_spec e2
                rw [h.pos] at c1 c3
                have hv := h.valid
                rw [i6] at hv
                have hlen : ((s.buffer.drop s.bufferOffset).take (cap - s.bufferOffset)).length = cap - s.bufferOffset := by
                  rw [List.length_take, List.length_drop, h.length]; omega
                have hbuf := memcpyAt_front s.buffer g1 hlen
                rw [hv, c2] at hbuf
                have hcat : (file.drop d).take (cap - s.bufferOffset) ++ g1 = (file.drop d).take (cap - s.bufferOffset + rs) := by
                  rw [← take_append_take, List.drop_drop, show d + (cap - s.bufferOffset) = s.offset by omega, ← c1]
                rw [hcat] at hbuf
                rw [hv]
                have hl2 : ((file.drop d).take (cap - s.bufferOffset + rs)).length = cap - s.bufferOffset + rs := by
                  rw [List.length_take, List.length_drop]; omega
                have hn2 : n ≤ cap - s.bufferOffset + rs := by omega
                constructor
                · simp only [hbuf]
                  rw [List.take_append_of_le_length (by omega), List.take_take, Nat.min_eq_left hn2]
                · refine ⟨?_, ?_, ?_, ?_, ?_, ?_, ?_, ?_⟩
                  · simp only [hbuf]
                    rw [List.length_append, hl2, List.length_drop, h.length]; omega
                  · simp only; omega
                  · simp only; omega
                  · simp only; omega
                  · simp only; omega
                  · simp only; omega
                  · simp only [hbuf]
                    rw [List.drop_append_of_le_length (by omega), List.take_append_of_le_length (by
                      rw [List.length_drop, hl2]; omega), List.drop_take, List.take_take, List.drop_drop]
                    congr 1; omega
                  · intro h1; simp only at h1 ⊢; omega
      · rename_i hneed
        obtain ⟨rfl, rfl⟩ := Prod.mk.inj (Option.some.inj e)
        have hvn : n ≤ s.offset - d := by
          rcases Nat.lt_or_ge s.offset file.length with h1 | h1
          · have := i4 h1; omega
          · omega
        have hv := h.valid
        constructor
        · have := congrArg (List.take n) hv
          rw [List.take_take, List.take_take, Nat.min_eq_left hvn] at this
          exact this
        · refine ⟨h.length, ?_, h.pos, i1, ?_, ?_, ?_, ?_⟩
          · simp only; omega
          · simp only; omega
          · simp only; omega
          · simp only
            have := congrArg (List.drop n) hv
            rw [List.drop_take, List.drop_take, List.drop_drop, List.drop_drop] at this
            rw [show s.offset - (d + n) = s.offset - d - n by omega]
            exact this
          · intro h1; have := i4 h1; simp only; omega

end DeepGNN.Stream
