import Verif.Proofs.HdfsGraph
import Verif.Props.C104
import Verif.Spec.TempMeta

/-
C105: a graph on HDFS is opened as the same files on disk.
-/

namespace DeepGNN

open Download Folders Stream HdfsGraph
open DeepGNN.Spec (HoldsPartition fileName PlainPaths DistinctNames ConvertedNames Undisturbed)

theorem hdfs_requests {m : Meta} {requests : List (Folder × Nat)}
    (hp : ∀ y ∈ requests, PlainPaths y.1.path y.1.files ∧ ConvertedNames y.1.files) {fss : List (List PartitionFiles)}
    (h : (requests.map fun y => (y.1.files, y.2)).mapM (fun y => (suffixes y.1 y.2).bind fun l => l.mapM (filesOf m y.1)) = some fss) :
    requests.mapM (fun y => (hdfsSuffixes y.1.path y.1.files y.2).bind fun l => l.mapM (filesOf m y.1.files)) = some fss := by
  rw [← h, List.mapM_map]
  apply mapM_congr_mem
  intro y hy
  rw [C104_hdfs_partial (hp y hy).1 (hp y hy).2]
  rfl

/-- Whatever the file system does: a graph that is opened from HDFS is the one that would be opened from the same files on disk, unless
these cannot be opened there. -/
theorem C105_bytes_partial {C : WeightCodec} {m : Meta} {requests : List (Folder × Nat)}
    (hp : ∀ y ∈ requests, PlainPaths y.1.path y.1.files ∧ ConvertedNames y.1.files) (net : List Char → Bool → Opening)
    (hg : ∀ path again, (net path again).garbage.length = 4096) {g g' : Graph}
    (h : openGraph C m (requests.map fun y => (y.1.files, y.2)) = some g) (h' : openHdfs C net m requests = some g') : g' = g := by
  unfold openGraph at h
  rw [Option.bind_eq_some_iff] at h
  obtain ⟨fss, h1, h2⟩ := h
  unfold openHdfs at h'
  rw [Option.bind_eq_some_iff] at h'
  obtain ⟨fss', h1', h2'⟩ := h'
  obtain ⟨h3, h4⟩ := loadGraph_arrived h2
  have h5 := hdfs_requests hp h1
  have e := mapM_follow (φ := fun fs => fs.map (arrived m)) h5 (by
    intro y hy fs hfs e fs' e'
    rw [Option.bind_eq_some_iff] at e e'
    obtain ⟨l, hl, e⟩ := e
    obtain ⟨l', hl', e'⟩ := e'
    rw [hl] at hl'
    obtain rfl := Option.some.inj hl'
    refine mapM_follow e (fun s hs f hf ef f' ef' => ?_) fs' e'
    obtain ⟨p, hp⟩ := h3 fs hfs f hf
    exact (streamFiles_arrived (folder := y.1.path) hg ef hp).1 f' ef') fss' h1'
  rw [e, h4] at h2'
  exact (Option.some.inj h2').symm

/-- If calls of the file system do not fail and do not return fewer bytes than asked for twice in a row, the graph is opened from HDFS
whenever it could be from disk, and it is the same. -/
theorem C105_streamed_partial {C : WeightCodec} {m : Meta} {requests : List (Folder × Nat)}
    (hp : ∀ y ∈ requests, PlainPaths y.1.path y.1.files ∧ ConvertedNames y.1.files) (net : List Char → Bool → Opening)
    (hg : ∀ path again, (net path again).garbage.length = 4096) (hr : ∀ path again, Reliable (net path again).reader) {g : Graph}
    (h : openGraph C m (requests.map fun y => (y.1.files, y.2)) = some g) : openHdfs C net m requests = some g := by
  unfold openGraph at h
  rw [Option.bind_eq_some_iff] at h
  obtain ⟨fss, h1, h2⟩ := h
  obtain ⟨h3, h4⟩ := loadGraph_arrived h2
  have h5 := hdfs_requests hp h1
  unfold openHdfs
  rw [mapM_follows (φ := fun fs => fs.map (arrived m)) h5 (by
    intro y hy fs hfs e
    rw [Option.bind_eq_some_iff] at e
    obtain ⟨l, hl, e⟩ := e
    rw [hl, Option.bind_some]
    refine mapM_follows e (fun s hs f hf ef => ?_)
    obtain ⟨p, hp⟩ := h3 fs hfs f hf
    exact (streamFiles_arrived (folder := y.1.path) hg ef hp).2 hr)]
  exact h4

/-- A converted graph with every partition in some directory on HDFS. -/
theorem C105_converted_partial {C : WeightCodec} {wm : Option Nat} {m : Meta} {parts : List (List (List Rec))} {g : Graph}
    (h : Built C wm m parts g) {requests : List (Folder × Nat)} (hl : requests.length = parts.length)
    (hr : ∀ (k : Nat) (h1 : k < requests.length) (h2 : k < parts.length),
      ∃ i f, convertPartition C wm parts[k] = some f ∧ HoldsPartition m requests[k].1.files requests[k].2 i f)
    (hp : ∀ y ∈ requests, PlainPaths y.1.path y.1.files) (net : List Char → Bool → Opening)
    (hg : ∀ path again, (net path again).garbage.length = 4096) (hn : ∀ path again, Reliable (net path again).reader) :
    openHdfs C net m requests = some g := by
  apply C105_streamed_partial _ net hg hn (C104_folders_partial h (by simpa using hl) ?_)
  · intro y hy
    refine ⟨hp y hy, ?_⟩
    obtain ⟨k, hk, e⟩ := List.getElem_of_mem hy
    obtain ⟨i, f, -, hh⟩ := hr k hk (by omega)
    rw [e] at hh
    exact hh.converted
  · intro k h1 h2
    simp only [List.getElem_map]
    exact hr k (by simpa using h1) h2

/-! Host and port. -/

theorem takeWhile_ne {c : Char} : ∀ (l r : Name), c ∉ l → (l ++ c :: r).takeWhile (· != c) = l
  | [], r, _ => by simp
  | a :: l, r, h => by
    simp only [List.mem_cons, not_or] at h
    rw [List.cons_append, List.takeWhile_cons_of_pos (by simpa using fun e => h.1 e.symm), takeWhile_ne l r h.2]

theorem dropWhile_ne {c : Char} : ∀ (l r : Name), c ∉ l → (l ++ c :: r).dropWhile (· != c) = c :: r
  | [], r, _ => by simp
  | a :: l, r, h => by
    simp only [List.mem_cons, not_or] at h
    rw [List.cons_append, List.dropWhile_cons_of_pos (by simpa using fun e => h.1 e.symm), dropWhile_ne l r h.2]

theorem whileNe_all {c : Char} : ∀ (l : Name), c ∉ l → l.takeWhile (· != c) = l ∧ l.dropWhile (· != c) = []
  | [], _ => by simp
  | a :: l, h => by
    simp only [List.mem_cons, not_or] at h
    rw [List.takeWhile_cons_of_pos (by simpa using fun e => h.1 e.symm), List.dropWhile_cons_of_pos (by simpa using fun e => h.1 e.symm)]
    exact ⟨by rw [(whileNe_all l h.2).1], (whileNe_all l h.2).2⟩

theorem parsePath_hdfs (rest : Name) (hf : ¬ "file:///".toList <:+: "hdfs://".toList ++ rest) :
    parsePath ("hdfs://".toList ++ rest) =
      match rest.dropWhile (· != ':') with
      | [] => some ("hdfs://".toList ++ rest.takeWhile (· != ':'), 0)
      | _ :: r => (stoi (r.takeWhile (· != '/'))).map fun port => ("hdfs://".toList ++ rest.takeWhile (· != ':'), port) := by
  unfold parsePath
  have h1 : isHdfs ("hdfs://".toList ++ rest) = true := by
    unfold isHdfs
    have : "hdfs://".toList.isPrefixOf ("hdfs://".toList ++ rest) = true := List.isPrefixOf_iff_prefix.2 (List.prefix_append _ _)
    rw [this]; simp
  have h2 : contains "file:///".toList ("hdfs://".toList ++ rest) = false := by
    unfold contains; rw [after_none _ _ hf]; rfl
  rw [if_neg (by rw [h1]; simp), if_neg (by rw [h2]; simp)]
  have e : "hdfs://".toList ++ rest = ['h', 'd', 'f', 's', ':'] ++ '/' :: '/' :: rest := rfl
  rw [e]
  have e1 : List.takeWhile (fun x => x != '/') (List.drop 1 (['h', 'd', 'f', 's', ':'] ++ '/' :: '/' :: rest)) = ['d', 'f', 's', ':'] := by
    simp
  rw [e1]
  have e2 : (['h', 'd', 'f', 's', ':'] ++ '/' :: '/' :: rest).drop (1 + ['d', 'f', 's', ':'].length) = '/' :: '/' :: rest := rfl
  have e3 : (['h', 'd', 'f', 's', ':'] ++ '/' :: '/' :: rest).take (1 + ['d', 'f', 's', ':'].length) = ['h', 'd', 'f', 's', ':'] := rfl
  simp only
  rw [e2, e3]
  have e4 : ('/' :: '/' :: rest).takeWhile (· != ':') = '/' :: '/' :: rest.takeWhile (· != ':') := by simp
  have e5 : ('/' :: '/' :: rest).dropWhile (· != ':') = rest.dropWhile (· != ':') := by simp
  rw [e4, e5]
  rfl

/-- The host and the port of a path are those in it; without a port the host is the path and the port 0. -/
theorem C105_path_partial (host path : List Char) (hf : ¬ "file:///".toList <:+: "hdfs://".toList ++ host ++ '/' :: path)
    (hh : ':' ∉ host) :
    (':' ∉ path → parsePath ("hdfs://".toList ++ host ++ '/' :: path) = some ("hdfs://".toList ++ host ++ '/' :: path, 0)) ∧
    ∀ port : Nat, ¬ "file:///".toList <:+: "hdfs://".toList ++ host ++ ':' :: Nat.toDigits 10 port ++ '/' :: path →
      parsePath ("hdfs://".toList ++ host ++ ':' :: Nat.toDigits 10 port ++ '/' :: path) = some ("hdfs://".toList ++ host, port) := by
  constructor
  · intro hp
    rw [List.append_assoc] at hf ⊢
    rw [parsePath_hdfs _ hf]
    have hn : ':' ∉ host ++ '/' :: path := by
      simp only [List.mem_append, List.mem_cons, not_or]
      exact ⟨hh, by decide, hp⟩
    obtain ⟨h1, h2⟩ := whileNe_all _ hn
    rw [h1, h2]
  · intro port hf
    rw [List.append_assoc, List.append_assoc] at hf ⊢
    rw [parsePath_hdfs _ hf, List.cons_append, dropWhile_ne _ _ hh, takeWhile_ne _ _ hh]
    simp only
    have hd : '/' ∉ Nat.toDigits 10 port := by
      intro h
      have := num_digits port '/' h
      exact absurd this (by decide)
    rw [takeWhile_ne _ _ hd]
    have : stoi (Nat.toDigits 10 port) = some port := by
      have := stoi_num port []
      unfold stoi at this ⊢
      rw [takeWhile_digits _ _ (num_digits port)] at this
      have e : (Nat.toDigits 10 port).takeWhile Char.isDigit = num port := by
        have := List.takeWhile_append_of_pos (l₁ := num port) (l₂ := []) (p := Char.isDigit) (num_digits port)
        rw [List.append_nil] at this
        rw [show Nat.toDigits 10 port = num port from rfl, this]; simp
      rw [e]
      exact this
    rw [this]
    rfl

/-- A path without a port but with a colon later on: what precedes the colon is taken for the host and the exception is thrown if no
digit follows. -/
theorem C105_path_refuted (host a b : List Char) (c : Char) (hh : ':' ∉ host ++ '/' :: a) (hc : c.isDigit = false)
    (hf : ¬ "file:///".toList <:+: "hdfs://".toList ++ (host ++ '/' :: a ++ ':' :: c :: b)) :
    parsePath ("hdfs://".toList ++ (host ++ '/' :: a ++ ':' :: c :: b)) = none := by
  rw [parsePath_hdfs _ hf, dropWhile_ne _ _ hh]
  simp only
  have : stoi ((c :: b).takeWhile (· != '/')) = none := by
    unfold stoi
    by_cases h : c = '/'
    · subst h; simp
    · rw [List.takeWhile_cons_of_pos (by simpa using h), List.takeWhile_cons_of_neg (by rw [hc]; decide)]; rfl
  rw [this]; rfl

/-! Metadata. -/

namespace TempMeta

/-- What holds while only `i` acts. -/
inductive Own (content : Nat → Bytes) (i : Nat) (s : State) : Prop where
  | fetched (h : s.phase i = .fetched)
  | writing (pos : Nat) (h : s.phase i = .writing pos) (hp : pos ≤ (content i).length) (hc : s.copy = some ((content i).take pos))
  | closed (h : s.phase i = .closed) (hc : s.copy = some (content i))
  | parsed (h : s.phase i = .parsed (some (content i))) (hc : s.copy = some (content i))

theorem writeAt_end (f b : Bytes) : writeAt f f.length b = f ++ b := by
  unfold writeAt
  split
  · rename_i h; subst h; simp
  · simp

theorem writeAt_at {f : Bytes} {p : Nat} (h : f.length = p) (b : Bytes) : writeAt f p b = f ++ b := by
  subst h; exact writeAt_end f b

theorem setPhase_self (s : State) (i : Nat) (p : Phase) : setPhase s i p i = p := by simp [setPhase]

theorem setPhase_ne (s : State) {i j : Nat} (p : Phase) (h : j ≠ i) : setPhase s i p j = s.phase j := by simp [setPhase, h]

theorem exec_own {content : Nat → Bytes} {i : Nat} {s t : State} {a : Act} (ha : a.who = i) (h : Own content i s)
    (e : exec content s a = some t) : Own content i t := by
  cases a with
  | create j =>
    obtain rfl : j = i := ha
    simp only [exec] at e
    split at e
    · cases e
      exact .writing 0 (setPhase_self _ _ _) (Nat.zero_le _) (by simp)
    · cases e
  | write j n =>
    obtain rfl : j = i := ha
    simp only [exec] at e
    split at e
    · rename_i pos hpos
      cases e
      cases h with
      | fetched h => rw [h] at hpos; cases hpos
      | closed h _ => rw [h] at hpos; cases hpos
      | parsed h _ => rw [h] at hpos; cases hpos
      | writing p h hp hc =>
        rw [h] at hpos
        obtain rfl := Phase.writing.inj hpos
        refine .writing _ (setPhase_self _ _ _) (Nat.min_le_right _ _) ?_
        simp only
        rw [hc, Option.map_some]
        have : ((content j).take p).length = p := by rw [List.length_take]; omega
        rw [writeAt_at this, ← List.take_add]
        congr 1
        rcases Nat.le_total (p + n) (content j).length with h' | h'
        · rw [Nat.min_eq_left h']
        · rw [Nat.min_eq_right h', List.take_of_length_le h', List.take_of_length_le (Nat.le_refl _)]
    · cases e
  | close j =>
    obtain rfl : j = i := ha
    simp only [exec] at e
    split at e
    · rename_i pos hpos
      cases e
      cases h with
      | fetched h => rw [h] at hpos; cases hpos
      | closed h _ => rw [h] at hpos; cases hpos
      | parsed h _ => rw [h] at hpos; cases hpos
      | writing p h hp hc =>
        rw [h] at hpos
        obtain rfl := Phase.writing.inj hpos
        refine .closed (setPhase_self _ _ _) ?_
        simp only
        rw [hc, Option.map_some]
        have : ((content j).take p).length = p := by rw [List.length_take]; omega
        rw [writeAt_at this, List.take_append_drop]
    · cases e
  | parse j =>
    obtain rfl : j = i := ha
    simp only [exec] at e
    split at e
    · rename_i hpos
      cases e
      cases h with
      | fetched h => rw [h] at hpos; cases hpos
      | writing p h hp hc => rw [h] at hpos; cases hpos
      | parsed h _ => rw [h] at hpos; cases hpos
      | closed h hc =>
        refine .parsed ?_ hc
        simp only
        rw [setPhase_self, hc]
    · cases e

theorem exec_other {content : Nat → Bytes} {i : Nat} {s t : State} {a : Act} (ha : a.who ≠ i) (e : exec content s a = some t) :
    t.phase i = s.phase i := by
  cases a <;>
  · simp only [exec] at e
    split at e
    · cases e
      exact setPhase_ne _ _ (fun h => ha h.symm)
    · cases e

theorem run_append {content : Nat → Bytes} : ∀ (a b : List Act) (s : State),
    run content s (a ++ b) = (run content s a).bind fun t => run content t b
  | [], b, s => rfl
  | x :: a, b, s => by
    rw [List.cons_append, run, run]
    cases exec content s x with
    | none => rfl
    | some t => exact run_append a b t

theorem run_own {content : Nat → Bytes} {i : Nat} : ∀ (acts : List Act) {s t : State}, (∀ a ∈ acts, a.who = i) → Own content i s →
    run content s acts = some t → Own content i t
  | [], s, t, _, h, e => by
    rw [run] at e; cases e; exact h
  | a :: acts, s, t, ha, h, e => by
    rw [run, Option.bind_eq_some_iff] at e
    obtain ⟨u, h1, h2⟩ := e
    exact run_own acts (fun b hb => ha b (List.mem_cons_of_mem _ hb)) (exec_own (ha a List.mem_cons_self) h h1) h2

theorem run_other {content : Nat → Bytes} {i : Nat} : ∀ (acts : List Act) {s t : State}, (∀ a ∈ acts, a.who ≠ i) →
    run content s acts = some t → t.phase i = s.phase i
  | [], s, t, _, e => by
    rw [run] at e; cases e; rfl
  | a :: acts, s, t, ha, e => by
    rw [run, Option.bind_eq_some_iff] at e
    obtain ⟨u, h1, h2⟩ := e
    rw [run_other acts (fun b hb => ha b (List.mem_cons_of_mem _ hb)) h2, exec_other (ha a List.mem_cons_self) h1]

end TempMeta

/-- A graph that is loaded while no other is gets its own metadata, whatever was in the directory for temporary files. -/
theorem C105_metadata_partial (content : Nat → Bytes) (copy : Option Bytes) (acts : List TempMeta.Act) {s : TempMeta.State}
    (h : TempMeta.run content (TempMeta.init copy) acts = some s) {i : Nat} (ha : Undisturbed i acts) {bytes : Option Bytes}
    (hp : s.phase i = .parsed bytes) : bytes = some (content i) := by
  obtain ⟨before, own, after, rfl, h1, h2, h3⟩ := ha
  rw [TempMeta.run_append, Option.bind_eq_some_iff] at h
  obtain ⟨t, h4, h5⟩ := h
  rw [TempMeta.run_append, Option.bind_eq_some_iff] at h4
  obtain ⟨u, h6, h7⟩ := h4
  have e1 : u.phase i = .fetched := TempMeta.run_other before h1 h6
  have e2 := TempMeta.run_own own h2 (.fetched e1) h7
  rw [TempMeta.run_other after h3 h5] at hp
  cases e2 with
  | fetched h => rw [h] at hp; cases hp
  | writing p h _ _ => rw [h] at hp; cases hp
  | closed h _ => rw [h] at hp; cases hp
  | parsed h _ => rw [h] at hp; exact (TempMeta.Phase.parsed.inj hp).symm

/-- Two graphs loaded at the same time, in one process or in two: the first may get the metadata of the second. -/
theorem C105_metadata_refuted (content : Nat → Bytes) (copy : Option Bytes) {i j : Nat} (hij : i ≠ j) :
    ∃ s, TempMeta.run content (TempMeta.init copy) [.create i, .close i, .create j, .close j, .parse i, .parse j] = some s ∧
      s.phase i = .parsed (some (content j)) ∧ s.phase j = .parsed (some (content j)) := by
  have hji : j ≠ i := fun e => hij e.symm
  have w : ∀ b : Bytes, TempMeta.writeAt [] 0 b = b := fun b => TempMeta.writeAt_end [] b
  simp [TempMeta.run, TempMeta.exec, TempMeta.init, TempMeta.setPhase, hij, hji, w]

/-- Loading the same graph twice at the same time is no better: the copy of the first may be empty when it is parsed. -/
theorem C105_same_graph_refuted (content : Nat → Bytes) (copy : Option Bytes) {i j : Nat} (hij : i ≠ j) :
    ∃ s, TempMeta.run content (TempMeta.init copy) [.create i, .close i, .create j, .parse i] = some s ∧ s.phase i = .parsed (some []) := by
  have hji : j ≠ i := fun e => hij e.symm
  simp [TempMeta.run, TempMeta.exec, TempMeta.init, TempMeta.setPhase, hij, hji]

/-- If the other one starts while the first is writing, the beginning of the metadata is lost: there are zero bytes in its place. -/
theorem C105_gap_refuted (content : Nat → Bytes) (copy : Option Bytes) {i j : Nat} (hij : i ≠ j) {n : Nat}
    (hn : n < (content i).length) :
    ∃ s, TempMeta.run content (TempMeta.init copy) [.create i, .write i n, .create j, .close i, .parse i] = some s ∧
      s.phase i = .parsed (some (List.replicate n 0 ++ (content i).drop n)) := by
  have hji : j ≠ i := fun e => hij e.symm
  have hm : min n (content i).length = n := Nat.min_eq_left (by omega)
  have w : TempMeta.writeAt [] n ((content i).drop n) = List.replicate n 0 ++ (content i).drop n := by
    unfold TempMeta.writeAt
    rw [if_neg (by intro h; have := congrArg List.length h; simp at this; omega)]
    simp
  simp [TempMeta.run, TempMeta.exec, TempMeta.init, TempMeta.setPhase, hij, hji, hm, w]

/-- Hypotheses of `C105_gap_refuted` are met. -/
example : ∃ s, TempMeta.run (fun _ => [1, 2, 3]) (TempMeta.init none) [.create 0, .write 0 2, .create 1, .close 0, .parse 0] = some s ∧
    s.phase 0 = .parsed (some [0, 0, 3]) := C105_gap_refuted (fun _ => [1, 2, 3]) none (i := 0) (j := 1) (by decide) (n := 2) (by decide)

/-- Loading a graph from HDFS changes a graph that lies in the directory for temporary files itself: its metadata are overwritten. -/
theorem C105_overwritten_refuted (content : Nat → Bytes) (old : Bytes) (i : Nat) :
    ∃ s, TempMeta.run content (TempMeta.init (some old)) [.create i, .close i, .parse i] = some s ∧ s.copy = some (content i) := by
  have w : ∀ b : Bytes, TempMeta.writeAt [] 0 b = b := fun b => TempMeta.writeAt_end [] b
  simp [TempMeta.run, TempMeta.exec, TempMeta.init, TempMeta.setPhase, w]

/-! Truncated files. -/

/-- Node 0 with edges to 5 and 7. -/
def hdfsParts : List (List (List Rec)) :=
  [[[⟨0, -1, 0, 1, none, none, []⟩, ⟨0, 5, 0, 1, none, none, []⟩, ⟨0, 7, 0, 1, none, none, []⟩]]]

def hdfsFiles : PartitionFiles := ((hdfsParts.mapM (convertPartition intCodec none)).getD []).getD 0 ⟨[], [], [], [], [], [], [], [], [], 0, 0⟩

/-- Its files on HDFS, the file of edges cut after the first edge. -/
def hdfsCut : Folder :=
  ⟨"hdfs://host/graph".toList, written none 0 { hdfsFiles with edgeIndex := hdfsFiles.edgeIndex.take 24 }⟩

/-- A reader that returns half of the bytes in every other call, and a buffer with zeros. -/
def halves : Opening := ⟨fun k n => if k % 2 = 0 then ((n / 2 : Nat) : Int) else n, List.replicate 4096 0⟩

theorem halves_reliable : Reliable halves.reader := by
  intro k n
  unfold halves
  simp only
  by_cases h : k % 2 = 0
  · rw [if_pos h, if_neg (by omega)]; omega
  · rw [if_neg h]; omega

/-- A file of edges that was cut is noticed on disk, but not on HDFS: what is in memory after its end is taken for edges.  Node 0 has an
edge to 0 instead of 7. -/
theorem C105_truncated_refuted :
    openGraph intCodec ⟨0, 0, -1⟩ [(hdfsCut.files, 0)] = none ∧
    ((openHdfs intCodec (fun _ _ => halves) ⟨0, 0, -1⟩ [(hdfsCut, 0)]).bind fun g => g.fullNeighbor1 none [0] 0) =
      some ([⟨5, 0, 1⟩, ⟨0, 0, 0⟩], 2) := by
  constructor
  · decide +kernel
  · decide +kernel

/-! Hypotheses are met. -/

/-- Partition 0 of `foldParts` in a directory on HDFS. -/
example : ∃ g, openHdfs intCodec (fun _ _ => halves) ⟨0, 0, -1⟩ [(⟨"hdfs://host:8020/graph".toList, foldOne⟩, 0)] = some g ∧
    g.fullNeighbor1 none [0] 0 = some ([⟨5, 0, 1⟩], 1) := by
  have h : (openGraph intCodec ⟨0, 0, -1⟩ [(foldOne, 0)]).bind (fun g => g.fullNeighbor1 none [0] 0) = some ([⟨5, 0, 1⟩], 1) := by
    decide +kernel
  rw [Option.bind_eq_some_iff] at h
  obtain ⟨g, hg, h⟩ := h
  refine ⟨g, C105_streamed_partial (requests := [(⟨"hdfs://host:8020/graph".toList, foldOne⟩, 0)]) ?_ _ (fun _ _ => ?_)
    (fun _ _ => halves_reliable) hg, h⟩
  · intro y hy
    simp only [List.mem_singleton] at hy
    subst hy
    exact ⟨⟨by decide +kernel, by decide +kernel, by decide +kernel⟩, foldOne_holds.converted⟩
  · unfold halves
    exact List.length_replicate

example : parsePath "hdfs://host:8020/graph".toList = some ("hdfs://host".toList, 8020) ∧
    parsePath "hdfs://host/a:b".toList = none ∧ parsePath "/graph".toList = some ("default".toList, 0) := by
  refine ⟨?_, C105_path_refuted "host".toList "a".toList [] 'b' (by decide) (by decide) (by decide +kernel), by decide +kernel⟩
  exact (C105_path_partial "host".toList "graph".toList (by decide +kernel) (by decide)).2 8020 (by decide +kernel)

/-- Two graphs one after the other get their own metadata. -/
example : ∃ s, TempMeta.run (fun i => [UInt8.ofNat i, 1, 2]) (TempMeta.init (some [9])) [.create 0, .write 0 2, .close 0, .parse 0, .create 1, .close 1, .parse 1] =
    some s ∧ s.phase 0 = .parsed (some [0, 1, 2]) ∧ s.phase 1 = .parsed (some [1, 1, 2]) := ⟨_, rfl, by decide, by decide⟩

example : Undisturbed 0 [.create 0, .write 0 2, .close 0, .parse 0, .create 1, .close 1, .parse 1] :=
  ⟨[], [.create 0, .write 0 2, .close 0, .parse 0], [.create 1, .close 1, .parse 1], rfl, by decide, by decide, by decide⟩

end DeepGNN
