import Verif.Proofs.ConvertRun
import Verif.Proofs.Uploader
import Verif.Props.C29
import Verif.Props.C31

/-
C75: a conversion that returns has converted everything.
-/

namespace DeepGNN

open ConvertRun Spec

variable {α : Type} {d : Dispatcher α} {cap : Nat} {ok : α → Bool} {lines : List α}

theorem mem_linesFor {l : List α} {i : Nat} {a : α} : a ∈ linesFor d l i ↔ ∃ c, l[c]? = some a ∧ d.target c a = i := by
  simp only [linesFor, List.mem_map, List.mem_filter, decide_eq_true_eq]
  constructor
  · rintro ⟨⟨b, c⟩, ⟨h1, h2⟩, rfl⟩
    rw [List.mk_mem_zipIdx_iff_getElem?] at h1
    exact ⟨c, h1, h2⟩
  · rintro ⟨c, h1, h2⟩
    exact ⟨(a, c), ⟨List.mk_mem_zipIdx_iff_getElem?.2 h1, h2⟩, rfl⟩

theorem got_facts {s : St α} (h : RunInv d ok lines s) : s.got.Nodup ∧ ∀ i ∈ s.got, (s.workers i).phase = .reported ∧ i ∈ s.flagged := by
  constructor
  · refine nodup_of_count fun i => ?_
    have := h.rep i
    rw [List.count_append] at this
    split at this <;> omega
  · intro i hi
    have h1 := h.rep i
    have h2 : 0 < s.got.count i := List.count_pos_iff.2 hi
    rw [List.count_append] at h1
    have h3 : (s.workers i).phase = .reported := Decidable.byContradiction fun h3 => by rw [if_neg h3] at h1; omega
    obtain ⟨m, -, -, h4⟩ := h.work i (by rw [h3]; decide)
    exact ⟨h3, (h4 (by rw [h3]; decide)).2⟩

/-- If `convert` returns, every line of the input was written to its partition, in order, and to no other, and the files of
all partitions are closed; whatever the schedule, the size of the pipes and the failures of converters. -/
theorem C75_converted {s : St α} (hr : Reach d cap ok lines s) (hs : s.saved = true) :
    Converted d lines s ∧ ∀ a ∈ lines, ok a = true := by
  have h := runInv hr
  obtain ⟨h1, h2⟩ := h.save hs
  obtain ⟨h3, h4⟩ := h.todoS _ h1
  rw [List.append_nil] at h4
  obtain ⟨g1, g2⟩ := got_facts h
  have hall : ∀ i, i ∈ s.got ↔ i ∈ s.flagged := fun i =>
    ⟨fun hi => (g2 i hi).2, mem_of_nodup_subset g1 (fun i hi => (g2 i hi).2) h2 i⟩
  have hc : lines.take s.count = lines := by
    have := h.input
    rw [h3] at this
    have h5 := congrArg List.length this
    rw [List.length_drop] at h5
    exact List.take_of_length_le (by simp at h5; omega)
  have hact := h.act
  have hpref := h.pref
  have hwork := h.work
  rw [hc] at hact hpref hwork
  have hfl : ∀ i, i ∈ s.flagged ↔ i < d.procs ∧ (d.all = true ∨ linesFor d lines i ≠ []) := by
    intro i
    by_cases ha : d.all = true
    · rw [Order, if_pos ha] at h4
      rw [h4, List.mem_range]
      exact ⟨fun h => ⟨h, .inl ha⟩, fun h => h.1⟩
    · have hl := order_lt h4 h.lt i
      rw [Order, if_neg ha] at h4
      rw [h4.2, hact]
      constructor
      · intro hi
        exact ⟨h.lt i ((hact i).2 hi), .inr hi⟩
      · rintro ⟨-, hi | hi⟩
        · exact absurd hi ha
        · exact hi
  have hrep : ∀ i, i ∈ s.flagged → (s.workers i).phase = .reported ∧ (s.workers i).written = linesFor d lines i := by
    intro i hi
    have h5 := (g2 i ((hall i).2 hi)).1
    obtain ⟨m, h6, -, h7⟩ := hwork i (by rw [h5]; decide)
    rw [(h7 (by rw [h5]; decide)).1, List.append_nil] at h6
    exact ⟨h5, h6⟩
  have hw : ∀ i < d.procs, (s.workers i).written = linesFor d lines i := by
    intro i hi
    by_cases he : linesFor d lines i = []
    · obtain ⟨m, hm⟩ := hpref i
      rw [he] at hm ⊢
      exact (List.append_eq_nil_iff.1 hm).1
    · exact (hrep i ((hfl i).2 ⟨hi, .inr he⟩)).2
  have hlt : ∀ x ∈ lines.zipIdx, d.target x.2 x.1 < d.procs := by
    rintro ⟨a, c⟩ hx
    rw [List.mk_mem_zipIdx_iff_getElem?] at hx
    exact h.lt _ ((hact _).2 (List.ne_nil_of_mem (mem_linesFor.2 ⟨c, hx, rfl⟩)))
  refine ⟨⟨hw, ?_, fun i hi he => (hrep i ((hfl i).2 ⟨hi, .inr he⟩)).1, g1, fun i => by rw [hall, hfl]⟩, ?_⟩
  · have e : ((List.range d.procs).flatMap fun i => (s.workers i).written) =
        ((List.range d.procs).flatMap fun i => lines.zipIdx.filter fun x => decide (d.target x.2 x.1 = i)).map (·.1) := by
      rw [List.map_flatMap, List.flatMap_def, List.flatMap_def]
      refine congrArg List.flatten (List.map_congr_left fun i hi => ?_)
      rw [hw i (List.mem_range.1 hi)]
      rfl
    rw [e]
    have h5 := (Uploader.filter_classes (fun x : α × Nat => d.target x.2 x.1) lines.zipIdx d.procs).map (·.1)
    rw [List.filter_eq_self.2 (fun x hx => decide_eq_true (hlt x hx)), List.zipIdx_map_fst] at h5
    exact h5
  · intro a ha
    obtain ⟨c, hx⟩ := List.mem_iff_getElem?.1 ha
    have hx' : a ∈ linesFor d lines (d.target c a) := mem_linesFor.2 ⟨c, hx, rfl⟩
    have := hlt (a, c) (List.mk_mem_zipIdx_iff_getElem?.2 hx)
    rw [← hw _ this] at hx'
    exact h.okw _ a hx'

/-- A line that cannot be decoded or written: `convert` never returns. -/
theorem C75_failure {s : St α} (hr : Reach d cap ok lines s) {a : α} (ha : a ∈ lines) (hf : ok a = false) : s.saved = false := by
  cases hs : s.saved with
  | false => rfl
  | true => have := (C75_converted hr hs).2 a ha; rw [hf] at this; cases this

/-- An interrupted conversion into a folder without metadata: if there is metadata, everything was converted. -/
theorem C75_interrupted {μ : Type} {new m : μ} {s : St α} (hr : Reach d cap ok lines s) (h : metaFile none new s = some m) :
    m = new ∧ Converted d lines s := by
  rw [metaFile] at h
  split at h
  · rename_i hs
    exact ⟨(Option.some.inj h).symm, (C75_converted hr hs).1⟩
  · cases h

/-- As long as no converter has failed something can be done, until `convert` returns. -/
theorem C75_progress (hcap : 0 < cap) (ht : ∀ c a, lines[c]? = some a → d.target c a < d.procs) (hok : ∀ a ∈ lines, ok a = true)
    {s : St α} (hr : Reach d cap ok lines s) (hd : ∀ i < d.procs, (s.workers i).phase ≠ .dead) :
    s.saved = true ∨ ∃ s', Step d cap ok s s' := by
  have h := runInv hr
  have sub : ∀ i, ∀ a ∈ linesFor d (lines.take s.count) i, ok a = true := by
    intro i a ha
    obtain ⟨c, hc, -⟩ := mem_linesFor.1 ha
    exact hok a (List.mem_of_mem_take (List.mem_of_getElem? hc))
  -- a converter with a full pipe that was not told about the end
  have full : ∀ i < d.procs, i ∉ s.flagged → ¬ (s.workers i).pipe.length < cap → ∃ s', Step d cap ok s s' := by
    intro i hi hn hc
    obtain ⟨m, h1, h2, h3⟩ := h.work i (hd i hi)
    have hrun : (s.workers i).phase = .running := Decidable.byContradiction fun hh => hn (h3 hh).2
    rw [if_neg (fun hh => hn hh.1), List.append_nil] at h2
    cases m with
    | nil => rw [h2] at hc; simp at hc; omega
    | cons a m => exact ⟨_, .write hi hrun h2 (sub i a (by rw [← h1]; simp))⟩
  cases hp : s.todo with
  | none =>
    refine .inr ?_
    cases hi : s.input with
    | nil =>
      by_cases ha : d.all = true
      · exact ⟨_, .stop (order := List.range d.procs) hp hi (by rw [Order, if_pos ha])⟩
      · have : ∃ o : List Nat, o.Nodup ∧ ∀ i, i ∈ o ↔ i ∈ s.active := by
          generalize s.active = l
          induction l with
          | nil => exact ⟨[], by simp, by simp⟩
          | cons x l ih =>
            obtain ⟨o, h1, h2⟩ := ih
            by_cases hx : x ∈ o
            · refine ⟨o, h1, fun i => ?_⟩
              rw [List.mem_cons, h2]
              exact ⟨.inr, fun hh => hh.elim (fun e => e ▸ (h2 _).1 hx) id⟩
            · exact ⟨x :: o, List.nodup_cons.2 ⟨hx, h1⟩, fun i => by rw [List.mem_cons, List.mem_cons, h2]⟩
        obtain ⟨o, h1, h2⟩ := this
        exact ⟨_, .stop (order := o) hp hi (by rw [Order, if_neg ha]; exact ⟨h1, h2⟩)⟩
    | cons a l =>
      have e0 : lines[s.count]? = some a := by
        have h1 := h.input
        rw [hi] at h1
        have : (lines.drop s.count)[0]? = some a := by rw [← h1]; rfl
        simpa using this
      have hlt := ht _ _ e0
      by_cases hc : (s.workers (d.target s.count a)).pipe.length < cap
      · exact ⟨_, .send hp hi hlt hc⟩
      · exact full _ hlt (by rw [h.todoN hp]; simp) hc
  | some l =>
    obtain ⟨hin, hord⟩ := h.todoS l hp
    have hlt := order_lt hord h.lt
    cases l with
    | cons i l =>
      refine .inr ?_
      by_cases hc : (s.workers i).pipe.length < cap
      · exact ⟨_, .flag hp hc⟩
      · refine full i (hlt i (by simp)) ?_ hc
        intro h1
        have := order_nodup hord
        rw [List.nodup_append] at this
        exact this.2.2 i h1 i List.mem_cons_self rfl
    | nil =>
      rw [List.append_nil] at hord hlt
      obtain ⟨g1, g2⟩ := got_facts h
      have hle : s.got.length ≤ s.flagged.length := List.Nodup.length_le_of_subset g1 (fun i hi => (g2 i hi).2)
      by_cases hg : s.got.length < s.flagged.length
      · refine .inr ?_
        cases ho : s.out with
        | cons i l => exact ⟨_, .get hp hg ho⟩
        | nil =>
          obtain ⟨i, hi, hn⟩ : ∃ i ∈ s.flagged, i ∉ s.got := by
            apply Classical.byContradiction
            intro hh
            have : s.flagged.length ≤ s.got.length := List.Nodup.length_le_of_subset (order_nodup hord) fun i hi =>
              Classical.byContradiction fun h' => hh ⟨i, hi, h'⟩
            omega
          have hnr : (s.workers i).phase ≠ .reported := by
            intro hh
            have := h.rep i
            rw [hh, if_pos rfl, ho, List.nil_append, List.count_eq_zero_of_not_mem hn] at this
            cases this
          have hilt := hlt i hi
          cases hph : (s.workers i).phase with
          | reported => exact absurd hph hnr
          | dead => exact absurd hph (hd i hilt)
          | closed => exact ⟨_, .report hilt hph⟩
          | running =>
            obtain ⟨m, h1, h2, -⟩ := h.work i (hd i hilt)
            rw [if_pos ⟨hi, hph⟩] at h2
            cases m with
            | nil => exact ⟨_, .close hilt hph h2⟩
            | cons a m => exact ⟨_, .write hilt hph h2 (sub i a (by rw [← h1]; simp))⟩
      · cases hs : s.saved with
        | true => exact .inl rfl
        | false => exact .inr ⟨_, .save hp (by omega) hs⟩

/-- Steps a converter can still take. -/
def workerLeft (w : Worker α) : Nat := w.pipe.length + (if w.phase = .running ∨ w.phase = .closed then 1 else 0)

/-- Steps the dispatching thread can still take. -/
def mainLeft (procs : Nat) (s : St α) : Nat :=
  match s.todo with
  | none => 2 * s.input.length + 3 * procs + 3
  | some l => 2 * l.length + (s.flagged.length + l.length - s.got.length) + (if s.saved then 0 else 1)

def stepsLeft (d : Dispatcher α) (s : St α) : Nat :=
  mainLeft d.procs s + ((List.range d.procs).map fun i => workerLeft (s.workers i)).sum

theorem sum_upd (f : Nat → Worker α) (i : Nat) (v : Worker α) : ∀ {n : Nat}, i < n →
    ((List.range n).map fun j => workerLeft (ConvertRun.upd f i v j)).sum + workerLeft (f i) =
      ((List.range n).map fun j => workerLeft (f j)).sum + workerLeft v
  | n + 1, h => by
    rw [List.range_succ, List.map_append, List.map_append, List.sum_append, List.sum_append]
    simp only [List.map_cons, List.map_nil, List.sum_cons, List.sum_nil, Nat.add_zero]
    by_cases hx : i = n
    · subst hx
      have : ((List.range i).map fun j => workerLeft (ConvertRun.upd f i v j)) = (List.range i).map fun j => workerLeft (f j) :=
        List.map_congr_left fun j hj => by
          rw [upd_ne _ _ (by have := List.mem_range.1 hj; omega)]
      rw [this, upd_self]
      omega
    · have := sum_upd f i v (n := n) (by omega)
      rw [upd_ne _ _ (fun h => hx h.symm)]
      omega

theorem stepsLeft_step {s s' : St α} (h : RunInv d ok lines s) (hs : Step d cap ok s s') : stepsLeft d s' < stepsLeft d s := by
  cases hs with
  | @send a l hp hi ht hc =>
    have e := sum_upd s.workers (d.target s.count a)
      { s.workers (d.target s.count a) with pipe := (s.workers (d.target s.count a)).pipe ++ [.line a] } ht
    simp only [stepsLeft, mainLeft, hp, hi, List.length_cons]
    simp only [workerLeft, List.length_append, List.length_singleton] at e ⊢
    omega
  | @stop order hp hi ho =>
    have h1 : order.length ≤ d.procs := by
      have := List.Nodup.length_le_of_subset (order_nodup ho) (l₂ := List.range d.procs)
        fun i hi => List.mem_range.2 (order_lt ho h.lt i hi)
      simpa using this
    have h2 := h.todoN hp
    simp only [stepsLeft, mainLeft, hp, hi, h2, List.length_nil]
    split <;> omega
  | @flag i l hp hc =>
    obtain ⟨-, hord⟩ := h.todoS _ hp
    have e := sum_upd s.workers i { s.workers i with pipe := (s.workers i).pipe ++ [.done] }
      (order_lt hord h.lt i (by simp))
    simp only [stepsLeft, mainLeft, hp, List.length_cons, List.length_append, List.length_nil]
    simp only [workerLeft, List.length_append, List.length_singleton] at e ⊢
    omega
  | @write i a l hi hr hl ha =>
    have e := sum_upd s.workers i ⟨l, (s.workers i).written ++ [a], .running⟩ hi
    simp only [stepsLeft, mainLeft]
    simp only [workerLeft, hl, hr, List.length_cons, true_or, if_true] at e ⊢
    omega
  | @fail i a l hi hr hl ha =>
    have e := sum_upd s.workers i ⟨l, (s.workers i).written, .dead⟩ hi
    simp only [stepsLeft, mainLeft]
    simp only [workerLeft, hl, hr, List.length_cons, true_or, if_true] at e ⊢
    simp at e ⊢
    omega
  | @close i l hi hr hl =>
    have e := sum_upd s.workers i ⟨l, (s.workers i).written, .closed⟩ hi
    simp only [stepsLeft, mainLeft]
    simp only [workerLeft, hl, hr, List.length_cons, true_or, or_true, if_true] at e ⊢
    omega
  | @report i hi hr =>
    have e := sum_upd s.workers i { s.workers i with phase := .reported } hi
    simp only [stepsLeft, mainLeft]
    simp only [workerLeft, hr, or_true, if_true] at e ⊢
    simp at e ⊢
    omega
  | @get i l hp hg ho =>
    simp only [stepsLeft, mainLeft, hp, List.length_append, List.length_singleton, List.length_nil]
    omega
  | save hp hg hs =>
    simp only [stepsLeft, mainLeft, hp, hs]
    simp

theorem stepsLeft_crash {s s' : St α} (hs : Crash d s s') : stepsLeft d s' < stepsLeft d s := by
  cases hs with
  | @crash i hi hr =>
    have e := sum_upd s.workers i { s.workers i with phase := .dead } hi
    simp only [stepsLeft, mainLeft]
    simp only [workerLeft, if_pos hr] at e ⊢
    simp at e ⊢
    omega

theorem runOf_reach {n : Nat} {s : St α} (h : RunOf d cap ok lines n s) : Reach d cap ok lines s := by
  induction h with
  | init => exact .init
  | step _ hs ih => exact .step ih hs
  | crash _ hs ih => exact .crash ih hs

/-- No conversion goes on forever. -/
theorem C75_bounded {n : Nat} {s : St α} (h : RunOf d cap ok lines n s) : n ≤ 2 * lines.length + 4 * d.procs + 3 := by
  have key : n + stepsLeft d s ≤ 2 * lines.length + 4 * d.procs + 3 := by
    induction h with
    | init =>
      have : ∀ p, ((List.range p).map fun i => workerLeft (({ input := lines } : St α).workers i)).sum = p := by
        intro p
        induction p with
        | zero => rfl
        | succ p ih =>
          rw [List.range_succ, List.map_append, List.sum_append, ih]
          simp [workerLeft]
      rw [stepsLeft, this]
      simp only [mainLeft]
      omega
    | step hr hs ih => have := stepsLeft_step (runInv (runOf_reach hr)) hs; omega
    | crash _ hs ih => have := stepsLeft_crash hs; omega
  omega

/-- Lines that can be decoded, no crash: wherever the conversion stops, it has returned and converted everything. -/
theorem C75_finishes (hcap : 0 < cap) (ht : ∀ c a, lines[c]? = some a → d.target c a < d.procs) (hok : ∀ a ∈ lines, ok a = true)
    {s : St α} (hr : Reach d cap ok lines s) (hd : ∀ i < d.procs, (s.workers i).phase ≠ .dead)
    (hend : ∀ s', ¬ Step d cap ok s s') : s.saved = true ∧ Converted d lines s := by
  rcases C75_progress hcap ht hok hr hd with h | ⟨s', h⟩
  · exact ⟨h, (C75_converted hr h).1⟩
  · exact absurd h (hend s')

theorem pipe_target {procs : Nat} (hp : 0 < procs) : ∀ c a, lines[c]? = some a → (pipe α procs).target c a < (pipe α procs).procs :=
  fun c _ _ => Nat.mod_lt c hp

/-! What goes wrong. -/

/-- One line that cannot be decoded: the conversion waits forever, it neither returns nor raises. -/
theorem C75_stall_refuted : ∃ s : St Bool, Reach (pipe Bool 1) 5 id [false] s ∧ s.saved = false ∧
    ∀ s', ¬ Step (pipe Bool 1) 5 id s s' := by
  refine ⟨_, .step (.step (.step (.step .init (.send rfl rfl (by decide) (by decide))) (.stop rfl rfl rfl)) (.flag rfl (by decide)))
    (.fail (i := 0) (a := false) (l := [.done]) (by decide) rfl rfl rfl), rfl, ?_⟩
  intro s' h
  cases h with
  | send hp => cases hp
  | stop hp => cases hp
  | flag hp => cases hp
  | write hi hr => cases Nat.lt_one_iff.1 hi; cases hr
  | fail hi hr => cases Nat.lt_one_iff.1 hi; cases hr
  | close hi hr => cases Nat.lt_one_iff.1 hi; cases hr
  | report hi hr => cases Nat.lt_one_iff.1 hi; cases hr
  | get _ _ ho => cases ho
  | save _ hg => cases hg

/-- Metadata of an earlier conversion in the same folder: after an interruption it is there, next to partitions without the
lines. -/
theorem C75_stale_refuted : ∃ s : St Bool, Reach (pipe Bool 1) 5 id [true] s ∧ metaFile (some 0) 1 s = some 0 ∧
    (s.workers 0).written = [] :=
  ⟨_, .init, rfl, rfl⟩

/-- Two workers, the second is interrupted: the metadata of the first alone is merged without complaint. -/
theorem C75_merge_refuted : WorkersOk C29_example ∧ ∃ m, mergeFiles ((workerFiles C29_example).take 1) = some m ∧
    ¬ Merged C29_example m := by
  refine ⟨by constructor <;> decide +kernel, ⟨2, 4, 6, 2, 1, 1, 0, 5, [(0, ⟨[3, 2], [6]⟩)], [2, 2], [6]⟩, by decide +kernel, ?_⟩
  intro h
  exact absurd h.nodeCount (by decide)

open Text

/-- Without failures the blocks are those of C31. -/
theorem C75_reader (content : Bytes) (len t : Nat) : startF (fun _ _ => .read) len t content = start len t [content] := by
  have h1 : ∀ off, readBlockF (fun _ => .read) content off len t = readBlock content off len t := by
    intro off
    have : ((subBlocks content off len t).zipIdx.map fun x => readPieceF .read x.1) = (subBlocks content off len t).map readPiece := by
      have : (fun x : Bytes × Nat => readPieceF .read x.1) = readPiece ∘ Prod.fst := rfl
      rw [this, ← List.map_map, List.zipIdx_map_fst]
    simp only [readBlockF, readBlock, this]
    rfl
  have h2 : ∀ fuel off, fileItemsF (fun _ _ => .read) content len t fuel off = fileItems content len t fuel off := by
    intro fuel
    induction fuel with
    | zero => intro off; rfl
    | succ fuel ih => intro off; simp only [fileItemsF, fileItems, h1, ih]
  simp only [startF, start, items, h2]

/-- A read fails in one of two threads: a line is lost and another one is read twice, and nothing is reported. -/
theorem C75_read_refuted : batches 9 false 9 (start 4 1 [[97, 10, 98, 10, 99, 10, 100, 10]]) = some [[[97], [98], [99], [100]]] ∧
    batches 9 false 9 (startF (fun off i => if off = 0 ∧ i = 0 then .failed else .read) 4 1 [97, 10, 98, 10, 99, 10, 100, 10]) =
      some [[[98], [98], [99], [100]]] := by
  decide +kernel

/-- A read fails at the end of a file: the rest of the file is left out. -/
theorem C75_end_refuted :
    batches 9 false 9 (startF (fun off _ => if off = 4 then .failed else .read) 4 0 [97, 10, 98, 10, 99, 10, 100, 10]) =
      some [[[97], [98]]] := by
  decide +kernel

/-- Bytes that are not UTF-8 in one line: all whole lines of the block are left out. -/
theorem C75_utf8_refuted :
    batches 9 false 9 (startF (fun _ _ => .undecodable) 9 0 [97, 10, 98, 255, 10, 99, 10, 100, 10]) = some [[[97]]] := by
  decide +kernel

/-! The hypotheses hold for concrete conversions. -/

/-- Three lines, two converters: a run to the end. -/
example : ∃ s : St Nat, Reach (pipe Nat 2) 1 (fun _ => true) [7, 8, 9] s ∧ s.saved = true ∧
    (s.workers 0).written = [7, 9] ∧ (s.workers 1).written = [8] ∧ s.got = [1, 0] :=
  ⟨_, .step (.step (.step (.step (.step (.step (.step (.step (.step (.step (.step (.step (.step (.step (.step (.step .init
    (.send rfl rfl (by decide) (by decide)))
    (.send rfl rfl (by decide) (by decide)))
    (.write (i := 0) (a := 7) (l := []) (by decide) rfl rfl rfl))
    (.send rfl rfl (by decide) (by decide)))
    (.write (i := 0) (a := 9) (l := []) (by decide) rfl rfl rfl))
    (.write (i := 1) (a := 8) (l := []) (by decide) rfl rfl rfl))
    (.stop rfl rfl rfl)) (.flag rfl (by decide))) (.flag rfl (by decide)))
    (.close (i := 1) (l := []) (by decide) rfl rfl)) (.report (i := 1) (by decide) rfl))
    (.close (i := 0) (l := []) (by decide) rfl rfl)) (.report (i := 0) (by decide) rfl))
    (.get rfl (by decide) rfl)) (.get rfl (by decide) rfl)) (.save rfl rfl rfl), rfl, rfl, rfl, rfl⟩

/-- Lines sent by partition, one converter without lines: only the other one reports. -/
example : ∃ s : St Nat, Reach (queue 2 fun a => a % 2) 5 (fun _ => true) [7] s ∧ s.saved = true ∧
    (s.workers 1).written = [7] ∧ s.got = [1] :=
  ⟨_, .step (.step (.step (.step (.step (.step (.step (.step .init
    (.send rfl rfl (by decide) (by decide)))
    (.stop (order := [1]) rfl rfl ⟨by decide, fun _ => Iff.rfl⟩)) (.flag rfl (by decide)))
    (.write (i := 1) (a := 7) (l := [.done]) (by decide) rfl rfl rfl))
    (.close (i := 1) (l := []) (by decide) rfl rfl)) (.report (i := 1) (by decide) rfl))
    (.get rfl (by decide) rfl)) (.save rfl rfl rfl), rfl, rfl, rfl⟩

/-- A full pipe: the dispatching thread waits, the converter can go on. -/
example : ∃ s : St Nat, Reach (pipe Nat 1) 1 (fun _ => true) [7, 8] s ∧ (∀ i < 1, (s.workers i).phase ≠ .dead) ∧
    s.saved = false ∧ s.input = [8] ∧ (s.workers 0).pipe.length = 1 :=
  ⟨_, .step .init (.send rfl rfl (by decide) (by decide)), fun i hi => by cases Nat.lt_one_iff.1 hi; decide, rfl, rfl, rfl⟩

/-- A converter is killed after it has written a line; another one goes on. -/
example : ∃ s : St Nat, Reach (pipe Nat 2) 5 (fun _ => true) [7, 8] s ∧ (s.workers 0).phase = .dead ∧ (s.workers 1).written = [8] :=
  ⟨_, .step (.crash (.step (.step (.step .init (.send rfl rfl (by decide) (by decide))) (.send rfl rfl (by decide) (by decide)))
    (.write (i := 0) (a := 7) (l := []) (by decide) rfl rfl rfl)) (.crash (i := 0) (by decide) (.inl rfl)))
    (.write (i := 1) (a := 8) (l := []) (by decide) rfl rfl rfl), rfl, rfl⟩

end DeepGNN
