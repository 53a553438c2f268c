import Verif.Proofs.Folders
import Verif.Proofs.Concrete
import Verif.Props.C93
import Verif.Props.C14

/-
C104: a graph can be opened with its partitions in any directories.
-/

namespace DeepGNN

open Download Folders
open DeepGNN.Spec (HoldsPartition fileName PlainPaths DistinctNames ConvertedNames)

/-- Every partition of a converted graph may lie in a directory of its own, under any number, with any other files beside it: if it is
found there in one set of files, the graph that is opened is the graph. -/
theorem C104_folders_partial {C : WeightCodec} {wm : Option Nat} {m : Meta} {parts : List (List (List Rec))} {g : Graph}
    (h : Built C wm m parts g) {requests : List (Dir Bytes × Nat)} (hl : requests.length = parts.length)
    (hr : ∀ (k : Nat) (h1 : k < requests.length) (h2 : k < parts.length),
      ∃ i f, convertPartition C wm parts[k] = some f ∧ HoldsPartition m requests[k].1 requests[k].2 i f) :
    openGraph C m requests = some g := by
  obtain ⟨fs, hc, -, hg⟩ := h.convert
  rw [← hg]
  apply openGraph_holds
  clear h hg
  induction parts generalizing requests fs with
  | nil =>
    have hr0 : requests = [] := List.eq_nil_of_length_eq_zero hl
    simp only [List.mapM_nil, Option.pure_def, Option.some.injEq] at hc
    subst hr0
    subst hc
    exact .nil
  | cons a parts ih =>
    cases requests with
    | nil => cases hl
    | cons y requests =>
      rw [List.mapM_cons, Option.bind_eq_bind, Option.bind_eq_some_iff] at hc
      obtain ⟨f, hf, hc⟩ := hc
      rw [Option.bind_eq_bind, Option.bind_eq_some_iff] at hc
      obtain ⟨fs', hfs, hc⟩ := hc
      simp only [Option.pure_def, Option.some.injEq] at hc
      subst hc
      obtain ⟨i, f', h1, h2⟩ := hr 0 (by simp) (by simp)
      rw [List.getElem_cons_zero, hf] at h1
      obtain rfl := Option.some.inj h1
      refine .cons ⟨i, h2⟩ (ih (by simpa using hl) (fun k k1 k2 => ?_) fs' hfs)
      have := hr (k + 1) (by simpa using k1) (by simpa using k2)
      simpa using this

/-- No name of the converter but that of the file of neighbours starts with "neighbors_". -/
theorem written_neighbors {wm : Option Nat} {p : Nat} {f : PartitionFiles} {x : Name × Bytes} (hx : x ∈ written wm p f)
    (hn : ∃ r, x.1 = neighbors ++ r) : x.1 = neighborsFile p ['0'] := by
  obtain ⟨r, hr⟩ := hn
  unfold written at hx
  simp only [List.mem_append, List.mem_cons, List.not_mem_nil, or_false] at hx
  rcases hx with (hx | hx | hx | hx | hx | hx | hx | hx) | hx
  case inl.inr.inr.inr.inr.inl => subst hx; simp [neighborsFile]
  all_goals exfalso
  case inr =>
    cases wm with
    | none => cases hx
    | some w =>
      simp only [List.mem_singleton] at hx
      subst hx
      simp [edge, neighbors] at hr
  all_goals
    subst hx
    simp [node, edge, neighbors] at hr

theorem neighborsFile_inj {p q : Nat} {i j : Name} (h : neighborsFile p i = neighborsFile q j) : p = q ∧ i = j := by
  have a := suffix_file p p i
  rw [h, suffix_file] at a
  simp only [if_true, Option.some.injEq] at a
  by_cases hq : q = p
  · subst hq
    simp only [if_true, Option.some.injEq] at a
    have := List.append_cancel_left a
    simp only [List.cons.injEq, true_and] at this
    exact ⟨rfl, this.symm⟩
  · simp [hq] at a

/-- The converter may write every partition into a directory of choice: `place p` is the directory of partition `p`, `other` are
further files in the directories, as alias tables and metadata.  The graph that is opened is the graph. -/
theorem C104_converted_partial {C : WeightCodec} {wm : Option Nat} {m : Meta} {parts : List (List (List Rec))} {g : Graph}
    (h : Built C wm m parts g) {fs : List PartitionFiles} (hf : parts.mapM (convertPartition C wm) = some fs) (place : Nat → Nat)
    (other : Nat → Dir Bytes) (dir : Nat → Dir Bytes)
    (hdir : ∀ x, dir x = ((fs.zipIdx.filter fun y => place y.2 = x).flatMap fun y => written wm y.2 y.1) ++ other x)
    (hd : ∀ p < parts.length, ((dir (place p)).map (·.1)).Nodup) (ho : ∀ x, ∀ y ∈ other x, ¬ "neighbors_".toList <+: y.1) :
    openGraph C m ((List.range parts.length).map fun p => (dir (place p), p)) = some g := by
  have ho' : ∀ x, ∀ y ∈ other x, ¬ ∃ r, y.1 = neighbors ++ r := by
    rintro x y hy ⟨r, hr⟩
    exact ho x y hy ⟨r, hr.symm⟩
  have hlen : fs.length = parts.length := mapM_some_length _ hf
  apply C104_folders_partial h (by simp)
  intro k h1 h2
  have hk : k < fs.length := by omega
  have hm : ∀ y ∈ written wm k fs[k], y ∈ dir (place k) := by
    intro y hy
    rw [hdir]
    refine List.mem_append_left _ (List.mem_flatMap.2 ⟨(fs[k], k), ?_, hy⟩)
    rw [List.mem_filter, List.mem_zipIdx_iff_getElem?]
    simp [hk]
  refine ⟨['0'], fs[k], ?_, ?_⟩
  · clear hd ho' hdir ho h hm h1 hlen
    induction parts generalizing fs k with
    | nil => simp at h2
    | cons a parts ih =>
      rw [List.mapM_cons, Option.bind_eq_bind, Option.bind_eq_some_iff] at hf
      obtain ⟨f, hf1, hf⟩ := hf
      rw [Option.bind_eq_bind, Option.bind_eq_some_iff] at hf
      obtain ⟨fs', hfs, hf⟩ := hf
      simp only [Option.pure_def, Option.some.injEq] at hf
      subst hf
      cases k with
      | zero => exact hf1
      | succ k => exact ih hfs k (by simpa using h2) (by simpa using hk)
  · simp only [List.getElem_map, List.getElem_range]
    have nm : ∀ {kind ext : String} {kk e : Name} {v : Bytes}, kind.toList = kk → ext.toList = e →
        (kk ++ num k ++ ['_', '0'] ++ e, v) ∈ dir (place k) → (fileName kind k ['0'] ext, v) ∈ dir (place k) := by
      intro kind ext kk e v hk' he hv
      rw [fileName_eq kind ext kk e hk' he]
      have : kk ++ (num k ++ '_' :: ['0']) ++ e = kk ++ num k ++ ['_', '0'] ++ e := by simp
      rw [this]
      exact hv
    have conv : ∀ f ∈ dir (place k), (∃ r, f.1 = neighbors ++ r) → ∃ q, f.1 = neighborsFile q ['0'] := by
      intro f hf1 hn
      rw [hdir] at hf1
      rcases List.mem_append.1 hf1 with h3 | h3
      · obtain ⟨y, -, hy⟩ := List.mem_flatMap.1 h3
        exact ⟨y.2, written_neighbors hy hn⟩
      · exact absurd hn (ho' _ f h3)
    refine ⟨hd k h2, ?_, by decide, ?_, nm (kk := node) (e := dotMap) (by decide) (by decide) (hm _ (by simp [written])),
      nm (kk := node) (e := dotIndex) (by decide) (by decide) (hm _ (by simp [written])),
      nm (kk := node ++ features) (e := dotIndex) (by decide) (by decide) (hm _ (by simp [written])),
      nm (kk := node ++ features) (e := dotData) (by decide) (by decide) (hm _ (by simp [written])),
      nm (kk := neighbors) (e := dotIndex) (by decide) (by decide) (hm _ (by simp [written])),
      nm (kk := edge) (e := dotIndex) (by decide) (by decide) (hm _ (by simp [written])),
      nm (kk := edge ++ features) (e := dotIndex) (by decide) (by decide) (hm _ (by simp [written])),
      nm (kk := edge ++ features) (e := dotData) (by decide) (by decide) (hm _ (by simp [written])), ?_⟩
    · intro f hf1 hn
      obtain ⟨q, hq⟩ := conv f hf1 hn
      exact ⟨q, ['0'], by decide, hq⟩
    · intro x hx j hj
      rw [neighbors_name] at hj
      obtain ⟨q, hq⟩ := conv x hx ⟨_, by rw [hj]; unfold neighborsFile; simp only [List.append_assoc]; rfl⟩
      rw [hj] at hq
      exact (neighborsFile_inj hq).2
    · intro hw
      have hwm := h.temporal hw
      cases wm with
      | none => exact absurd rfl hwm
      | some w => exact nm (kk := edge) (e := dotTimestamp) (by decide) (by decide) (hm _ (by simp [written]))

/-- A partition in several sets of files (as announced in graph.cc:58-59): all nodes are looked up in the first one. -/
theorem C104_several_files_refuted {C : WeightCodec} {m : Meta} {d : Dir Bytes} {p : Nat} {g : Graph}
    (h : openGraph C m [(d, p)] = some g) {n : Int} {es : List (Partition × Nat)} (he : g.entries n = some es) :
    ∀ e ∈ es, g.parts[0]? = some e.1 := by
  unfold openGraph at h
  rw [Option.bind_eq_some_iff] at h
  obtain ⟨fss, h1, h2⟩ := h
  rw [List.mapM_cons, Option.bind_eq_bind, Option.bind_eq_some_iff] at h1
  obtain ⟨fs, -, h1⟩ := h1
  simp only [List.mapM_nil, Option.pure_def, Option.bind_eq_bind, Option.bind_some, Option.some.injEq] at h1
  subst h1
  exact first_only h2 he

/-- A copy of the file of neighbours under another extension: every neighbour is returned twice. -/
theorem C104_copy_refuted {C : WeightCodec} {wm : Option Nat} {m : Meta} {part : List (List Rec)} {g : Graph} {f : PartitionFiles}
    (h : Built C wm m [part] g) (hf : convertPartition C wm part = some f) {d : Dir Bytes} {p : Nat} {i : List Char}
    (hh : HoldsPartition m d p i f) (ext : List Char) (he : '.' ∉ ext) (content : Bytes) :
    openGraph C m [(d, p)] = some g ∧
    ∃ g', openGraph C m [(d ++ [(fileName "neighbors_" p i "." ++ ext, content)], p)] = some g' ∧
      ∀ ts types n, g'.fullNeighbor1 ts types n = (g.fullNeighbor1 ts types n).map fun r => (r.1 ++ r.1, r.2 + r.2) := by
  refine ⟨C104_folders_partial h rfl ?_, ?_⟩
  · intro k h1 h2
    have : k = 0 := by simp at h1; omega
    subst this
    exact ⟨i, f, hf, hh⟩
  · obtain ⟨g', h1, h2⟩ := load_twice h hf
    refine ⟨g', ?_, h2⟩
    have en : fileName "neighbors_" p i "." ++ ext = neighbors ++ (num p ++ '_' :: i) ++ '.' :: ext := by
      rw [fileName_eq "neighbors_" "." neighbors ['.'] (by decide) (by decide)]
      simp
    have hs : suffixes (d ++ [(fileName "neighbors_" p i "." ++ ext, content)]) p =
        some [num p ++ '_' :: i, num p ++ '_' :: i] := by
      rw [suffixes_append d _ p (mapM_total _ _ d (suffix_total hh.converted p)) (r := [some (num p ++ '_' :: i)]) (by
        rw [List.mapM_cons, en, suffix_named p i ext he]
        rfl)]
      rw [List.filterMap_map]
      have := filterMap_one hh.distinct hh.converted (p := p) (i := i) ⟨f.neighborsIndex, by
        rw [← neighbors_name]; exact hh.neighborsIndex⟩ fun x hx j e => hh.once x hx j (by rw [neighbors_name]; exact e)
      rw [show (id ∘ fun f : Name × Bytes => suffixOf p f.1) = fun f => suffixOf p f.1 from rfl, this]
      show some (sortNames [num p ++ '_' :: i, num p ++ '_' :: i]) = _
      rw [insert_same]
    unfold openGraph
    rw [List.mapM_cons, hs]
    simp only [Option.bind_some, List.mapM_cons, List.mapM_nil, filesOf_append (holds_files hh), Option.bind_eq_bind, Option.pure_def]
    have := loadGraph_used C m [[f, f]]
    rw [h1] at this
    exact this

/-- A backup of the file of neighbours with an added extension: the graph does not open. -/
theorem C104_backup_refuted {C : WeightCodec} {m : Meta} {d : Dir Bytes} {p : Nat} {i : List Char} {f : PartitionFiles}
    (hh : HoldsPartition m d p i f) (ext : List Char) (he : '.' ∉ ext) (content : Bytes)
    (hn : ∀ x ∈ d, x.1 ≠ fileName "node_" p (i ++ ".index".toList) ".map") {requests : List (Dir Bytes × Nat)}
    (hr : (d ++ [(fileName "neighbors_" p i ".index." ++ ext, content)], p) ∈ requests) :
    openGraph C m requests = none := by
  have en : fileName "neighbors_" p i ".index." ++ ext = neighbors ++ (num p ++ '_' :: (i ++ dotIndex)) ++ '.' :: ext := by
    rw [fileName_eq "neighbors_" ".index." neighbors ['.', 'i', 'n', 'd', 'e', 'x', '.'] (by decide) (by decide)]
    simp [dotIndex]
  have hs : suffixes (d ++ [(fileName "neighbors_" p i ".index." ++ ext, content)]) p =
      some (sortNames ([num p ++ '_' :: i] ++ [num p ++ '_' :: (i ++ dotIndex)])) := by
    rw [suffixes_append d _ p (mapM_total _ _ d (suffix_total hh.converted p)) (r := [some (num p ++ '_' :: (i ++ dotIndex))]) (by
      rw [List.mapM_cons, en, suffix_named p _ ext he]
      rfl)]
    rw [List.filterMap_map]
    have := filterMap_one hh.distinct hh.converted (p := p) (i := i) ⟨f.neighborsIndex, by
      rw [← neighbors_name]; exact hh.neighborsIndex⟩ fun x hx j e => hh.once x hx j (by rw [neighbors_name]; exact e)
    rw [show (id ∘ fun f : Name × Bytes => suffixOf p f.1) = fun f => suffixOf p f.1 from rfl, this]
    rfl
  have hread : Download.read (d ++ [(fileName "neighbors_" p i ".index." ++ ext, content)])
      (node ++ (num p ++ '_' :: (i ++ dotIndex)) ++ dotMap) = none := by
    unfold Download.read
    rw [Option.map_eq_none_iff, List.find?_eq_none]
    intro x hx
    rw [beq_iff_eq]
    rcases List.mem_append.1 hx with hx | hx
    · have := hn x hx
      rw [fileName_eq "node_" ".map" node dotMap (by decide) (by decide)] at this
      exact this
    · simp only [List.mem_singleton] at hx
      subst hx
      rw [en]
      simp [node, neighbors]
  unfold openGraph
  rw [mapM_none_mem hr]
  · rfl
  · rw [hs, Option.bind_some]
    apply mapM_none_mem (x := num p ++ '_' :: (i ++ dotIndex))
    · exact (sortNames_perm _).mem_iff.2 (by simp)
    · unfold filesOf
      rw [hread]
      rfl

/-! HDFS. -/

theorem after_skip (pat b : Name) : ∀ a : Name, (∀ x y, a = x ++ y → y ≠ [] → ¬ pat <+: y ++ b) → after pat (a ++ b) = after pat b
  | [], _ => rfl
  | c :: a, h => by
    rw [List.cons_append, after]
    have h1 : pat.isPrefixOf (c :: (a ++ b)) = false := by
      cases hb : pat.isPrefixOf (c :: (a ++ b)) with
      | false => rfl
      | true => exact absurd (List.isPrefixOf_iff_prefix.1 hb) (h [] (c :: a) rfl (by simp))
    rw [h1]
    exact after_skip pat b a fun x y e hy => h (c :: x) y (by rw [e]; rfl) hy

theorem after_none (pat : Name) : ∀ a : Name, ¬ pat <:+: a → after pat a = none
  | [], _ => rfl
  | c :: a, h => by
    rw [after]
    have h1 : pat.isPrefixOf (c :: a) = false := by
      cases hb : pat.isPrefixOf (c :: a) with
      | false => rfl
      | true => exact absurd (List.isPrefixOf_iff_prefix.1 hb).isInfix h
    rw [h1]
    exact after_none pat a fun hi => h (hi.trans (List.suffix_cons c a).isInfix)

/-- An occurrence cannot reach over a character that it does not contain. -/
theorem prefix_over {pat y b : Name} {c : Char} (hc : c ∉ pat) (h : pat <+: y ++ c :: b) : pat <+: y := by
  have h' : y ++ [c] <+: y ++ c :: b := ⟨b, by simp⟩
  rcases List.prefix_or_prefix_of_prefix h h' with h1 | h1
  · rcases List.prefix_concat_iff.1 h1 with h2 | h2
    · exact absurd (by rw [h2]; simp) hc
    · exact h2
  · exact absurd (h1.subset (by simp)) hc

theorem after_path {folder n : Name} (h : ¬ neighbors <:+: folder) : after neighbors (folder ++ '/' :: n) = after neighbors n := by
  rw [show folder ++ '/' :: n = (folder ++ ['/']) ++ n from by simp]
  apply after_skip
  intro x y e hy hp
  have e' : ∃ z, y = z ++ ['/'] ∧ folder = x ++ z := by
    rcases List.eq_nil_or_concat y with h1 | ⟨z, b, h1⟩
    · exact absurd h1 hy
    · rw [List.concat_eq_append] at h1
      rw [h1, ← List.append_assoc] at e
      have := List.append_inj' e rfl
      simp only [List.cons.injEq, and_true] at this
      exact ⟨z, by rw [h1, this.2], this.1⟩
  obtain ⟨z, rfl, rfl⟩ := e'
  rw [List.append_assoc] at hp
  have := prefix_over (c := '/') (by decide) hp
  exact h (this.isInfix.trans (List.suffix_append x z).isInfix)

theorem lastPart_plain {n : Name} (h : '/' ∉ n) : lastPart n = n := by
  unfold lastPart
  have : ∀ l : Name, '/' ∉ l → l.takeWhile (· != '/') = l := by
    intro l
    induction l with
    | nil => intro _; rfl
    | cons c l ih =>
      intro hl
      simp only [List.mem_cons, not_or] at hl
      rw [List.takeWhile_cons, if_pos (by simpa using fun e : c = '/' => hl.1 e.symm), ih hl.2]
  rw [this _ (by simpa using h), List.reverse_reverse]

/-- The files of a partition on HDFS are those that would be found in a local directory, if no name on the path contains
"neighbors_". -/
theorem C104_hdfs_partial {α : Type} {folder : List Char} {d : Dir α} (h : PlainPaths folder d) (hc : ConvertedNames d) (p : Nat) :
    hdfsSuffixes folder d p = suffixes d p := by
  unfold hdfsSuffixes suffixes
  congr 1
  apply mapM_congr_mem
  intro f hf
  unfold hdfsSuffix
  have hfol : ¬ neighbors <:+: folder := h.folder
  rw [after_path hfol]
  by_cases hn : ∃ r, f.1 = neighbors ++ r
  · obtain ⟨q, i, hi, e⟩ := hc f hf hn
    have e' : f.1 = neighborsFile q i := e
    have hsl := h.slash f hf
    rw [e', suffix_file]
    have hrest : after neighbors (neighborsFile q i) = some (num q ++ '_' :: (i ++ dotIndex)) := by
      have e2 : neighborsFile q i = neighbors ++ (num q ++ '_' :: (i ++ dotIndex)) := by simp [neighborsFile]
      rw [e2]
      have hp : neighbors.isPrefixOf (neighbors ++ (num q ++ '_' :: (i ++ dotIndex))) = true :=
        List.isPrefixOf_iff_prefix.2 ⟨_, rfl⟩
      have : after neighbors (neighbors ++ (num q ++ '_' :: (i ++ dotIndex))) =
          if neighbors.isPrefixOf (neighbors ++ (num q ++ '_' :: (i ++ dotIndex))) then
            some ((neighbors ++ (num q ++ '_' :: (i ++ dotIndex))).drop neighbors.length)
          else after neighbors (neighbors ++ (num q ++ '_' :: (i ++ dotIndex))).tail := rfl
      rw [this, if_pos hp, List.drop_left]
    rw [hrest]
    dsimp only
    rw [stoi_num, Option.map_some]
    have hl : lastPart (num q ++ '_' :: (i ++ dotIndex)) = num q ++ '_' :: (i ++ dotIndex) := by
      apply lastPart_plain
      intro hm
      apply hsl
      rw [e']
      unfold neighborsFile
      simp only [List.append_assoc, List.mem_append] at hm ⊢
      simp only [List.mem_cons, List.mem_append, List.not_mem_nil, or_false] at hm ⊢
      rcases hm with hm | hm | hm | hm
      · exact .inr (.inl hm)
      · exact .inr (.inr (.inl hm))
      · exact .inr (.inr (.inr (.inl hm)))
      · exact .inr (.inr (.inr (.inr hm)))
    rw [hl]
    have hst : stem (num q ++ '_' :: (i ++ dotIndex)) = num q ++ '_' :: i := by
      rw [show num q ++ '_' :: (i ++ dotIndex) = (num q ++ '_' :: i) ++ '.' :: ['i', 'n', 'd', 'e', 'x'] from by simp [dotIndex]]
      exact stem_append _ (by simp) _ (by decide)
    rw [hst]
  · rw [suffix_other p _ hn, after_none]
    intro hi
    obtain ⟨r, hr⟩ := h.start f hf hi
    exact hn ⟨r, hr.symm⟩

/-- A directory on HDFS whose path contains "neighbors_" before anything that is not a digit cannot be opened at all, whatever its files. -/
theorem C104_hdfs_refuted {α : Type} (a b : List Char) (c : Char) (ha : 'n' ∉ a) (hc : c.isDigit = false) {d : Dir α} (hd : d ≠ [])
    (p : Nat) : hdfsSuffixes (a ++ "neighbors_".toList ++ c :: b) d p = none := by
  unfold hdfsSuffixes
  cases d with
  | nil => exact absurd rfl hd
  | cons f d =>
    have : hdfsSuffix p (a ++ "neighbors_".toList ++ c :: b ++ '/' :: f.1) = none := by
      unfold hdfsSuffix
      have e : after neighbors (a ++ "neighbors_".toList ++ c :: b ++ '/' :: f.1) = some (c :: (b ++ '/' :: f.1)) := by
        rw [show a ++ "neighbors_".toList ++ c :: b ++ '/' :: f.1 = a ++ (neighbors ++ c :: (b ++ '/' :: f.1)) from by
          simp [show "neighbors_".toList = neighbors from by decide]]
        rw [after_skip]
        · have hp : neighbors.isPrefixOf (neighbors ++ c :: (b ++ '/' :: f.1)) = true := List.isPrefixOf_iff_prefix.2 ⟨_, rfl⟩
          have : after neighbors (neighbors ++ c :: (b ++ '/' :: f.1)) =
              if neighbors.isPrefixOf (neighbors ++ c :: (b ++ '/' :: f.1)) then
                some ((neighbors ++ c :: (b ++ '/' :: f.1)).drop neighbors.length)
              else after neighbors (neighbors ++ c :: (b ++ '/' :: f.1)).tail := rfl
          rw [this, if_pos hp, List.drop_left]
        · intro x y e hy hp
          cases y with
          | nil => exact hy rfl
          | cons y0 y =>
            obtain ⟨r, hr⟩ := hp
            have h0 : 'n' = y0 := by
              have := congrArg List.head? hr
              simpa [neighbors] using this
            subst h0
            exact ha (by rw [e]; simp)
      rw [e]
      dsimp only
      unfold stoi
      rw [List.takeWhile_cons, hc]
      rfl
    rw [List.mapM_cons, this]
    rfl

/-! Concrete graphs. -/

/-- Two partitions: node 0 with an edge to 5, node 1 with an edge to 6. -/
def foldParts : List (List (List Rec)) :=
  [[[⟨0, -1, 0, 1, none, none, []⟩, ⟨0, 5, 0, 1, none, none, []⟩]], [[⟨1, -1, 0, 1, none, none, []⟩, ⟨1, 6, 0, 1, none, none, []⟩]]]

def foldFiles : List PartitionFiles := (foldParts.mapM (convertPartition intCodec none)).getD []

/-- Partition `p` in directory `10 + p`, beside the metadata. -/
def foldDir (x : Nat) : Dir Bytes :=
  ((foldFiles.zipIdx.filter fun y => 10 + y.2 = x).flatMap fun y => written none y.2 y.1) ++ [(metaName, [])]

/-- Hypotheses of `C104_converted_partial` are met by a graph in two directories. -/
example : ∃ g, openGraph intCodec ⟨0, 0, -1⟩ [(foldDir 10, 0), (foldDir 11, 1)] = some g ∧
    g.fullNeighbor1 none [0] 1 = some ([⟨6, 0, 1⟩], 1) := by
  obtain ⟨g, hg, hb⟩ := built_of_check (wm := none) (m := ⟨0, 0, -1⟩) (parts := foldParts) (by decide +kernel)
  have hf : foldParts.mapM (convertPartition intCodec none) = some foldFiles := by
    have : (foldParts.mapM (convertPartition intCodec none)).isSome = true := by decide +kernel
    unfold foldFiles
    cases h : foldParts.mapM (convertPartition intCodec none) with
    | none => rw [h] at this; cases this
    | some l => rfl
  refine ⟨g, C104_converted_partial hb hf (fun p => 10 + p) (fun _ => [(metaName, [])]) foldDir (fun x => rfl) ?_ ?_, ?_⟩
  · decide +kernel
  · intro x y hy
    simp only [List.mem_singleton] at hy
    subst hy
    decide +kernel
  · have : (graphOf intCodec none ⟨0, 0, -1⟩ foldParts).bind (fun g => g.fullNeighbor1 none [0] 1) = some ([⟨6, 0, 1⟩], 1) := by
      decide +kernel
    rw [hg] at this
    exact this

/-- Both sets of files as partition 0 in one directory. -/
def foldBoth : Dir Bytes :=
  foldFiles.zipIdx.flatMap fun y =>
    [(fileName "node_" 0 (num y.2) ".map", y.1.nodeMap), (fileName "node_" 0 (num y.2) ".index", y.1.nodeIndex),
      (fileName "neighbors_" 0 (num y.2) ".index", y.1.neighborsIndex), (fileName "edge_" 0 (num y.2) ".index", y.1.edgeIndex)]

/-- A partition in two sets of files: the neighbours of node 1 are those of node 0. -/
theorem C104_two_sets_refuted : (openGraph intCodec ⟨0, 0, -1⟩ [(foldBoth, 0)]).bind (fun g => g.fullNeighbor1 none [0] 1) =
    some ([⟨5, 0, 1⟩], 1) := by decide +kernel

/-- One partition in its directory. -/
def foldOne : Dir Bytes := written none 0 (foldFiles.getD 0 ⟨[], [], [], [], [], [], [], [], [], 0, 0⟩)

theorem foldOne_holds : HoldsPartition ⟨0, 0, -1⟩ foldOne 0 ['0'] (foldFiles.getD 0 ⟨[], [], [], [], [], [], [], [], [], 0, 0⟩) where
  distinct := by unfold DistinctNames; decide +kernel
  converted := by
    intro f hf hn
    exact ⟨0, ['0'], by decide, written_neighbors hf hn⟩
  plain := by decide
  once := by
    intro x hx j hj
    rw [neighbors_name] at hj
    have := written_neighbors hx ⟨_, by rw [hj]; unfold neighborsFile; simp only [List.append_assoc]; rfl⟩
    rw [hj] at this
    exact (neighborsFile_inj this).2
  nodeMap := by decide +kernel
  nodeIndex := by decide +kernel
  nodeFeatureIndex := by decide +kernel
  nodeFeatureData := by decide +kernel
  neighborsIndex := by decide +kernel
  edgeIndex := by decide +kernel
  edgeFeatureIndex := by decide +kernel
  edgeFeatureData := by decide +kernel
  edgeTimestamps := by intro h; exact absurd h (by decide)

/-- Hypotheses of `C104_copy_refuted` are met: with a file neighbors_0_0.tmp node 0 has its neighbour twice. -/
example : ∃ g', openGraph intCodec ⟨0, 0, -1⟩ [(foldOne ++ [(fileName "neighbors_" 0 ['0'] "." ++ ['t', 'm', 'p'], [])], 0)] = some g' ∧
    g'.fullNeighbor1 none [0] 0 = some ([⟨5, 0, 1⟩, ⟨5, 0, 1⟩], 2) := by
  obtain ⟨g, hg, hb⟩ := built_of_check (wm := none) (m := ⟨0, 0, -1⟩) (parts := [foldParts.getD 0 []]) (by decide +kernel)
  have hf : convertPartition intCodec none (foldParts.getD 0 []) = some (foldFiles.getD 0 ⟨[], [], [], [], [], [], [], [], [], 0, 0⟩) := by
    unfold foldFiles
    have : (foldParts.mapM (convertPartition intCodec none)).isSome = true := by decide +kernel
    cases h : foldParts.mapM (convertPartition intCodec none) with
    | none => rw [h] at this; cases this
    | some l =>
      unfold foldParts at h
      rw [List.mapM_cons, Option.bind_eq_bind, Option.bind_eq_some_iff] at h
      obtain ⟨f, hf1, h⟩ := h
      rw [Option.bind_eq_bind, Option.bind_eq_some_iff] at h
      obtain ⟨l', -, h⟩ := h
      simp only [Option.pure_def, Option.some.injEq] at h
      subst h
      exact hf1
  obtain ⟨-, g', h1, h2⟩ := C104_copy_refuted hb hf foldOne_holds ['t', 'm', 'p'] (by decide) []
  refine ⟨g', h1, ?_⟩
  rw [h2]
  have : (graphOf intCodec none ⟨0, 0, -1⟩ [foldParts.getD 0 []]).bind (fun g => g.fullNeighbor1 none [0] 0) = some ([⟨5, 0, 1⟩], 1) := by
    decide +kernel
  rw [hg] at this
  have e : g.fullNeighbor1 none [0] 0 = some ([⟨5, 0, 1⟩], 1) := this
  rw [e]
  rfl

/-- Hypotheses of `C104_backup_refuted` are met by a file neighbors_0_0.index.bak. -/
example : openGraph intCodec ⟨0, 0, -1⟩ [(foldOne ++ [(fileName "neighbors_" 0 ['0'] ".index." ++ ['b', 'a', 'k'], [])], 0)] = none :=
  C104_backup_refuted foldOne_holds ['b', 'a', 'k'] (by decide) [] (by decide +kernel) (List.mem_singleton.2 rfl)

/-- Hypotheses of `C104_hdfs_partial` are met, and a name that contains "neighbors_" makes a difference. -/
example : hdfsSuffixes "hdfs://host/graph".toList foldOne 0 = some [['0', '_', '0']] := by
  rw [C104_hdfs_partial ⟨by decide +kernel, by decide +kernel, by decide +kernel⟩ foldOne_holds.converted, holds_suffixes foldOne_holds]
  decide +kernel

example : hdfsSuffixes "hdfs://host/neighbors_graph".toList foldOne 0 = none :=
  C104_hdfs_refuted "hdfs://host/".toList "raph".toList 'g' (by decide) (by decide) (by decide +kernel) 0

end DeepGNN
