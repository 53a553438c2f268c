import Verif.Proofs.Download

/-!
C93: a graph loaded from remote storage is the graph stored there (src/python/deepgnn/graph_engine/snark/_downloader.py).
-/

namespace DeepGNN

open Spec Download

namespace Download

variable {α : Type} {w : World α} {k : Nat} {path : String} {parts : List (String × Nat)} {c : Info}

theorem last_fs (l : List (String × Nat)) (h : ∀ y ∈ l, w.protocol y.1 = k) :
    l.foldl (fun _ y => w.protocol y.1) k = k := by
  induction l with
  | nil => rfl
  | cons a l ih =>
    rw [List.foldl_cons, h a (by simp)]
    exact ih fun y hy => h y (by simp [hy])

/-- The files asked for. -/
def asked (w : World α) (k : Nat) (c : Info) (parts : List (String × Nat)) : Dir α :=
  (parts.flatMap fun y => (patterns c y.2).map fun x => (y.1, x)).flatMap fun y =>
    (w.files k y.1).filter fun f => y.2.matches f.1

theorem mem_asked {f : Name × α} : f ∈ asked w k c parts ↔
    ∃ y ∈ parts, f ∈ w.files k y.1 ∧ ∃ x ∈ patterns c y.2, x.matches f.1 = true := by
  unfold asked
  simp only [List.mem_flatMap, List.mem_map, List.mem_filter]
  constructor
  · rintro ⟨z, ⟨y, hy, x, hx, rfl⟩, h1, h2⟩
    exact ⟨y, hy, h1, x, hx, h2⟩
  · rintro ⟨y, hy, h1, x, hx, h2⟩
    exact ⟨_, ⟨y, hy, x, hx, rfl⟩, h1, h2⟩

theorem download_eq (h : RemoteGraph w k path parts) {parse : α → Option Info} {a : α}
    (ha : read (w.files k path) metaName = some a) (hc : parse a = some c) (hne : asked w k c parts ≠ []) :
    download w parse path parts =
      some (some ((asked w k c parts).foldl put [(metaName, a)]), parts.map fun y => (Place.temp, y.2)) := by
  unfold download
  rw [h.metadata, if_neg h.remote, ha, Option.bind_some, hc, Option.bind_some]
  simp only [last_fs parts h.data]
  have e1 : (parts.flatMap fun y => if w.protocol y.1 = 0 then [] else (patterns c y.2).map fun x => (y.1, x)) =
      parts.flatMap fun y => (patterns c y.2).map fun x => (y.1, x) := by
    rw [List.flatMap_def, List.flatMap_def]
    congr 1
    apply List.map_congr_left
    intro y hy
    rw [h.data y hy, if_neg h.remote]
  have e2 : (parts.map fun y => (if w.protocol y.1 = 0 then Place.path y.1 else .temp, y.2)) =
      parts.map fun y => (Place.temp, y.2) := by
    apply List.map_congr_left
    intro y hy
    rw [h.data y hy, if_neg h.remote]
  rw [e1, e2]
  unfold fetch
  have : (asked w k c parts).isEmpty = false := by simpa using hne
  unfold asked at this
  simp only [this]
  rfl

theorem asked_ne (hp : ∃ y ∈ parts, HasPartition (w.files k y.1) y.2) :
    asked w k c parts ≠ [] := by
  obtain ⟨y, hy, f, hf, i, -, hi⟩ := hp
  have : f ∈ asked w k c parts := by
    rw [mem_asked]
    refine ⟨y, hy, hf, ?_⟩
    rw [hi]
    exact neighbors_asked c y.2 i
  exact List.ne_nil_of_mem this

theorem asked_consistent (h : RemoteGraph w k path parts) :
    ∀ f ∈ asked w k c parts, ∀ g ∈ asked w k c parts, f.1 = g.1 → f = g := by
  intro f hf g hg e
  obtain ⟨y, hy, h1, x, hx, h2⟩ := mem_asked.1 hf
  obtain ⟨z, hz, h3, x', hx', h4⟩ := mem_asked.1 hg
  rw [e] at h2
  have := h.once y hy z hz (owner_inj hx hx' h2 h4)
  rw [this] at h1
  exact distinct_mem (h.distinct z hz) h1 h3 e

theorem temp_distinct (l : Dir α) (a : α) : DistinctNames (l.foldl put [(metaName, a)]) :=
  distinct_fold l (by simp [DistinctNames])

theorem temp_mem (h : RemoteGraph w k path parts) (a : α) {y : String × Nat} (hy : y ∈ parts) {n : Name}
    (hn : ∃ x ∈ patterns c y.2, x.matches n = true) (v : α) :
    (n, v) ∈ (asked w k c parts).foldl put [(metaName, a)] ↔ (n, v) ∈ w.files k y.1 := by
  rw [mem_fold _ (asked_consistent h), mem_asked]
  obtain ⟨x, hx, hm⟩ := hn
  constructor
  · rintro (⟨z, hz, h1, x', hx', h2⟩ | ⟨h1, -⟩)
    · rw [h.once y hy z hz (owner_inj hx hx' hm h2)]
      exact h1
    · simp only [List.mem_singleton, Prod.mk.injEq] at h1
      exact absurd h1.1 (owner hx hm).2
  · intro h1
    exact .inl ⟨y, hy, h1, x, hx, hm⟩

theorem temp_from (h : RemoteGraph w k path parts) (a : α) {f : Name × α}
    (hf : f ∈ (asked w k c parts).foldl put [(metaName, a)]) :
    f = (metaName, a) ∨ ∃ y ∈ parts, f ∈ w.files k y.1 ∧ ∃ x ∈ patterns c y.2, x.matches f.1 = true := by
  rw [mem_fold _ (asked_consistent h), mem_asked] at hf
  rcases hf with hf | hf
  · exact .inr hf
  · exact .inl (List.mem_singleton.1 hf.1)

theorem temp_converted (h : RemoteGraph w k path parts) (a : α) :
    ConvertedNames ((asked w k c parts).foldl put [(metaName, a)]) := by
  intro f hf hn
  rcases temp_from h a hf with rfl | ⟨y, hy, h1, -⟩
  · obtain ⟨r, hr⟩ := hn
    simp [metaName, neighbors] at hr
  · exact h.converted y hy f h1 hn

theorem temp_suffixes (h : RemoteGraph w k path parts) (a : α) {y : String × Nat} (hy : y ∈ parts) :
    suffixes ((asked w k c parts).foldl put [(metaName, a)]) y.2 = suffixes (w.files k y.1) y.2 := by
  rw [suffixes_eq (temp_converted h a), suffixes_eq (h.converted y hy)]
  congr 1
  apply sortNames_congr
  rw [List.perm_ext_iff_of_nodup (nodup_suffixes (temp_distinct _ a) (temp_converted h a) _)
    (nodup_suffixes (h.distinct y hy) (h.converted y hy) _)]
  intro s
  simp only [List.mem_filterMap]
  constructor
  · rintro ⟨f, hf, hs⟩
    obtain ⟨i, -, hi, -⟩ := suffixOf_eq (temp_converted h a) hf hs
    refine ⟨f, ?_, hs⟩
    exact (temp_mem h a hy (by rw [hi]; exact neighbors_asked c y.2 i) f.2).1 hf
  · rintro ⟨f, hf, hs⟩
    obtain ⟨i, -, hi, -⟩ := suffixOf_eq (h.converted y hy) hf hs
    refine ⟨f, ?_, hs⟩
    exact (temp_mem h a hy (by rw [hi]; exact neighbors_asked c y.2 i) f.2).2 hf

theorem suffixes_mem (h : RemoteGraph w k path parts) {y : String × Nat} (hy : y ∈ parts) {l : List Name}
    (hl : suffixes (w.files k y.1) y.2 = some l) {s : Name} (hs : s ∈ l) : ∃ i, s = num y.2 ++ '_' :: i := by
  rw [suffixes_eq (h.converted y hy)] at hl
  cases hl
  have := (sortNames_perm _).mem_iff.1 hs
  obtain ⟨f, hf, he⟩ := List.mem_filterMap.1 this
  obtain ⟨i, -, -, e⟩ := suffixOf_eq (h.converted y hy) hf he
  exact ⟨i, e⟩

theorem mapM_congr_mem {β γ : Type} {f g : β → Option γ} : ∀ {l : List β}, (∀ x ∈ l, f x = g x) → l.mapM f = l.mapM g
  | [], _ => rfl
  | a :: l, h => by
    rw [List.mapM_cons, List.mapM_cons, h a (by simp), mapM_congr_mem fun x hx => h x (by simp [hx])]

theorem mapM_none_mem {β γ : Type} {f : β → Option γ} : ∀ {l : List β} {x : β}, x ∈ l → f x = none → l.mapM f = none
  | a :: l, x, h, e => by
    rw [List.mapM_cons]
    rcases List.mem_cons.1 h with rfl | h
    · rw [e]; rfl
    · rw [mapM_none_mem h e]
      cases f a <;> rfl

theorem timestamp_free (h : RemoteGraph w k path parts) (a : α) (r : Name) (v : α) : (r ++ dotTimestamp, v) ∉ (asked w k c parts).foldl put [(metaName, a)] := by
  intro hm
  have key : ∀ (x : Pattern), (x.suf = dotMap ∨ x.suf = dotIndex ∨ x.suf = dotData ∨ ∃ q, x.suf = q ++ dotAlias) →
      x.matches (r ++ dotTimestamp) = true → False := by
    intro x hx hm
    obtain ⟨mid, e⟩ := (matches_iff _ _).1 hm
    have e := congrArg (fun l => l.reverse.take 4) e
    rcases hx with hx | hx | hx | ⟨q, hx⟩ <;>
      simp [hx, dotTimestamp, dotMap, dotIndex, dotData, dotAlias] at e
  rcases temp_from h a hm with e | ⟨y, hy, h1, x, hx, h2⟩
  · have e := congrArg (fun l => l.reverse.take 4) (Prod.mk.inj e).1
    simp [dotTimestamp, metaName] at e
  · refine key x ?_ h2
    unfold patterns at hx
    simp only [List.mem_append, List.mem_cons, List.not_mem_nil, or_false] at hx
    rcases hx with ((h | h) | h) | h
    · rcases h with h | h | h | h <;> simp [h]
    · split at h
      · simp only [List.mem_cons, List.not_mem_nil, or_false] at h
        rcases h with h | h <;> simp [h]
      · simp at h
    · split at h
      · simp only [List.mem_cons, List.not_mem_nil, or_false] at h
        rcases h with h | h <;> simp [h]
      · simp at h
    · rcases h with h | h
      · exact .inr (.inr (.inr ⟨['_'] ++ num y.2, by rw [h]⟩))
      · exact .inr (.inr (.inr ⟨['_'] ++ num y.2, by rw [h]⟩))

end Download

/-- A graph without edge timestamps whose metadata and partitions are on one remote file system: the download succeeds, the
metadata is the stored one, and for every partition the engine reads from the temporary directory just what it would read from the
remote directory, alias tables included.
Missing: timestamps and other placements, which fail (see the refutations); other file systems than fsspec's default behaviour. -/
theorem C93_download_partial {α : Type} {w : World α} {k : Nat} {path : String} {parts : List (String × Nat)}
    (h : RemoteGraph w k path parts) {parse : α → Option Info} {a : α} {c : Info}
    (ha : read (w.files k path) metaName = some a) (hc : parse a = some c) (hw : c.watermark < 0)
    (hp : ∃ y ∈ parts, HasPartition (w.files k y.1) y.2) :
    ∃ t, download w parse path parts = some (some t, parts.map fun y => (Place.temp, y.2)) ∧
      read t metaName = some a ∧
      ∀ y ∈ parts, load c t y.2 = load c (w.files k y.1) y.2 ∧
        ∀ tp, nodeTable t t tp y.2 = nodeTable (w.files k path) (w.files k y.1) tp y.2 ∧
          ∀ weighted, edgeTable weighted t t tp y.2 = read (w.files k y.1) (edgeAlias tp y.2) := by
  refine ⟨_, download_eq h ha hc (asked_ne hp), ?_, ?_⟩
  · rw [read_iff (temp_distinct _ a), mem_fold _ (asked_consistent h)]
    refine .inr ⟨by simp, fun g hg => ?_⟩
    obtain ⟨y, -, -, x, hx, hm⟩ := mem_asked.1 hg
    exact (owner hx hm).2
  · intro y hy
    have hr : ∀ n, (∃ x ∈ patterns c y.2, x.matches n = true) →
        read ((asked w k c parts).foldl put [(metaName, a)]) n = read (w.files k y.1) n := fun n hn =>
      read_congr (temp_distinct _ a) (h.distinct y hy) n fun v => temp_mem h a hy hn v
    refine ⟨?_, fun tp => ⟨hr _ (alias_asked c y.2 tp).1, fun weighted => ?_⟩⟩
    · unfold load
      rw [temp_suffixes h a hy]
      cases hl : suffixes (w.files k y.1) y.2 with
      | none => rfl
      | some l =>
        rw [Option.bind_some, Option.bind_some]
        apply mapM_congr_mem
        intro s hs
        obtain ⟨i, rfl⟩ := suffixes_mem h hy hl hs
        apply mapM_congr_mem
        intro n hn
        exact hr n (names_asked c y.2 i n hn hw)
    · unfold edgeTable
      simp only [ite_self]
      exact hr _ (alias_asked c y.2 tp).2

/-- Files with the timestamps of edges are never downloaded: with a watermark, no partition that has data can be loaded. -/
theorem C93_timestamps_refuted {α : Type} {w : World α} {k : Nat} {path : String} {parts : List (String × Nat)}
    (h : RemoteGraph w k path parts) {parse : α → Option Info} {a : α} {c : Info}
    (ha : read (w.files k path) metaName = some a) (hc : parse a = some c) (hw : 0 ≤ c.watermark)
    {y : String × Nat} (hy : y ∈ parts) (hp : HasPartition (w.files k y.1) y.2) :
    ∃ t, download w parse path parts = some (some t, parts.map fun y => (Place.temp, y.2)) ∧ load c t y.2 = none := by
  refine ⟨_, download_eq h ha hc (asked_ne ⟨y, hy, hp⟩), ?_⟩
  obtain ⟨f, hf, i, hi, e⟩ := hp
  unfold load
  rw [temp_suffixes h a hy, suffixes_eq (h.converted y hy), Option.bind_some]
  refine mapM_none_mem (x := num y.2 ++ '_' :: i) ?_ ?_
  · rw [(sortNames_perm _).mem_iff, List.mem_filterMap]
    refine ⟨f, hf, ?_⟩
    have : f.1 = neighborsFile y.2 i := e
    unfold suffixOf
    rw [this, suffix_file]
    simp
  · refine mapM_none_mem (x := edge ++ (num y.2 ++ '_' :: i) ++ dotTimestamp) ?_ ?_
    · unfold names
      simp [hw]
    · cases hx : read ((asked w k c parts).foldl put [(metaName, a)]) (edge ++ (num y.2 ++ '_' :: i) ++ dotTimestamp) with
      | none => rfl
      | some v =>
        rw [read_iff (temp_distinct _ a)] at hx
        exact absurd hx (timestamp_free h a _ v)

/-- Remote partitions are searched with the file system of the last partition: when that one is local (and has no directory of
such a name) the download raises. -/
theorem C93_last_local_refuted {α : Type} (w : World α) (parse : α → Option Info) (path : String)
    (parts : List (String × Nat)) (last : String × Nat) (hm : w.protocol path ≠ 0) (hl : w.protocol last.1 = 0)
    (he : ∀ y ∈ parts, w.protocol y.1 ≠ 0 → w.files 0 y.1 = []) :
    download w parse path (parts ++ [last]) = none := by
  unfold download
  rw [if_neg hm]
  cases read (w.files (w.protocol path) path) metaName with
  | none => rfl
  | some a =>
    rw [Option.bind_some]
    cases parse a with
    | none => rfl
    | some c =>
      rw [Option.bind_some]
      simp only [List.foldl_append, List.foldl_cons, List.foldl_nil, hl]
      unfold fetch
      have : ((parts ++ [last]).flatMap fun y =>
          if w.protocol y.1 = 0 then [] else (patterns c y.2).map fun x => (y.1, x)).flatMap (fun y =>
            (w.files 0 y.1).filter fun f => y.2.matches f.1) = [] := by
        apply List.flatMap_eq_nil_iff.2
        intro z hz
        obtain ⟨y, hy, hz⟩ := List.mem_flatMap.1 hz
        by_cases hq : w.protocol y.1 = 0
        · rw [if_pos hq] at hz
          cases hz
        · rw [if_neg hq] at hz
          obtain ⟨x, -, rfl⟩ := List.mem_map.1 hz
          rcases List.mem_append.1 hy with hy | hy
          · rw [he y hy hq]; rfl
          · rw [List.mem_singleton.1 hy] at hq
            exact absurd hl hq
      simp only [this]
      rfl

/-- The order does not matter otherwise: local partitions may be mixed with those of a remote graph as long as the last one is
remote; the remote ones are then read from the temporary directory, the local ones from their own. -/
theorem C93_mixed_partial {α : Type} {w : World α} {k : Nat} {path : String} {parts : List (String × Nat)} {last : String × Nat}
    (h : RemoteGraph w k path ((parts ++ [last]).filter fun y => w.protocol y.1 != 0)) (hlast : w.protocol last.1 ≠ 0)
    {parse : α → Option Info} {a : α} {c : Info}
    (ha : read (w.files k path) metaName = some a) (hc : parse a = some c) (hw : c.watermark < 0)
    (hp : ∃ y ∈ parts ++ [last], w.protocol y.1 ≠ 0 ∧ HasPartition (w.files k y.1) y.2) :
    ∃ t, download w parse path (parts ++ [last]) = some (some t,
        (parts ++ [last]).map fun y => (if w.protocol y.1 = 0 then Place.path y.1 else .temp, y.2)) ∧
      ∀ y ∈ parts ++ [last], ∀ x ∈ [(if w.protocol y.1 = 0 then Place.path y.1 else .temp)],
        load c (opened w (some t) x) y.2 = load c (w.files (w.protocol y.1) y.1) y.2 := by
  have hk : w.protocol last.1 = k := h.data last (by simp [hlast])
  obtain ⟨t, h1, -, h2⟩ := C93_download_partial h ha hc hw (by
    obtain ⟨y, hy, h3, h4⟩ := hp
    exact ⟨y, List.mem_filter.2 ⟨hy, by simpa using h3⟩, h4⟩)
  have e : ∀ l : List (String × Nat), (l.flatMap fun y => if w.protocol y.1 = 0 then []
        else (patterns c y.2).map fun x => (y.1, x)) =
      (l.filter fun y => w.protocol y.1 != 0).flatMap fun y => if w.protocol y.1 = 0 then []
        else (patterns c y.2).map fun x => (y.1, x) := by
    intro l
    induction l with
    | nil => rfl
    | cons y l ih =>
      rw [List.flatMap_cons, ih]
      by_cases hy : w.protocol y.1 = 0
      · rw [List.filter_cons_of_neg (by simp [hy]), if_pos hy]
        rfl
      · rw [List.filter_cons_of_pos (by simp [hy]), List.flatMap_cons]
  refine ⟨t, ?_, ?_⟩
  · unfold download at h1 ⊢
    rw [h.metadata, if_neg h.remote, ha, Option.bind_some, hc, Option.bind_some] at h1 ⊢
    simp only [last_fs _ h.data, ← e] at h1
    simp only [List.foldl_append, List.foldl_cons, List.foldl_nil, hk]
    cases hf : fetch w k ((parts ++ [last]).flatMap fun y => if w.protocol y.1 = 0 then []
        else (patterns c y.2).map fun x => (y.1, x)) with
    | none => rw [hf] at h1; cases h1
    | some d =>
      rw [hf] at h1
      simp only [Option.map_some] at h1 ⊢
      have := (Prod.mk.inj (Option.some.inj h1)).1
      rw [this]
  · intro y hy x hx
    rw [List.mem_singleton.1 hx]
    by_cases hl : w.protocol y.1 = 0
    · rw [if_pos hl, hl]
      rfl
    · rw [if_neg hl]
      have hm : y ∈ (parts ++ [last]).filter fun y => w.protocol y.1 != 0 := List.mem_filter.2 ⟨hy, by simpa using hl⟩
      rw [h.data y hm]
      exact (h2 y hm).1

/-- A local graph is read from where it is. -/
theorem C93_local {α : Type} (w : World α) (parse : α → Option Info) (path : String)
    (parts : List (String × Nat)) (hm : w.protocol path = 0) (hl : ∀ y ∈ parts, w.protocol y.1 = 0) :
    ∃ places, download w parse path parts = some (none, places) ∧ places.map (·.2) = parts.map (·.2) ∧
      places.map (fun x => opened w none x.1) = parts.map fun y => w.files (w.protocol y.1) y.1 := by
  refine ⟨_, by unfold download; rw [if_pos hm], by simp, ?_⟩
  rw [List.map_map]
  apply List.map_congr_left
  intro y hy
  rw [hl y hy]
  rfl

/-! Concrete stores; contents are numbers. -/

def dlFile (pre : Name) (p i : Nat) (suf : Name) : Name := pre ++ num p ++ ['_'] ++ num i ++ suf

/-- Partition `p` with contents from `b`, as the converter writes it: no features, edge timestamps, alias tables of type 0. -/
def dlPart (p b : Nat) : Dir Nat :=
  [(dlFile node p 0 dotMap, b), (dlFile node p 0 dotIndex, b + 1), (dlFile neighbors p 0 dotIndex, b + 2),
    (dlFile edge p 0 dotIndex, b + 3), (dlFile edge p 0 dotTimestamp, b + 4), (nodeAlias 0 p, b + 5), (edgeAlias 0 p, b + 6)]

/-- File system 0 is local, 1 remote; "r" and "s" are remote paths. -/
def dlWorld : World Nat where
  protocol s := if s = "r" ∨ s = "s" then 1 else 0
  files k s := if k = 1 then (if s = "r" then (metaName, 7) :: dlPart 0 10 ++ dlPart 1 20 else if s = "s" then dlPart 1 30 else [])
    else (if s = "l" then (metaName, 7) :: dlPart 2 40 else [])

def dlParse (watermark : Int) (a : Nat) : Option Info := if a = 7 then some ⟨0, 0, watermark⟩ else none

theorem dlWorld_remote : RemoteGraph dlWorld 1 "r" [("r", 0), ("r", 1)] where
  remote := by decide
  metadata := by decide
  data := by decide
  once := by decide
  distinct := by
    have : ((dlWorld.files 1 "r").map (·.1)).Nodup := by decide +kernel
    intro y hy
    simp only [List.mem_cons, List.not_mem_nil, or_false] at hy
    rcases hy with rfl | rfl <;> exact this
  converted := by
    have key : ∀ f ∈ dlWorld.files 1 "r", neighbors.isPrefixOf f.1 = true →
        f.1 = dlFile neighbors 0 0 dotIndex ∨ f.1 = dlFile neighbors 1 0 dotIndex := by decide +kernel
    have : ConvertedNames (dlWorld.files 1 "r") := by
      intro f hf ⟨r, hr⟩
      rcases key f hf (List.isPrefixOf_iff_prefix.2 ⟨r, hr.symm⟩) with e | e
      · exact ⟨0, num 0, by decide, e⟩
      · exact ⟨1, num 0, by decide, e⟩
    intro y hy
    simp only [List.mem_cons, List.not_mem_nil, or_false] at hy
    rcases hy with rfl | rfl <;> exact this

theorem dlWorld_has : HasPartition (dlWorld.files 1 "r") 1 :=
  ⟨(dlFile neighbors 1 0 dotIndex, 22), by decide +kernel, num 0, by decide, by decide⟩

/-- Hypotheses of the theorems are met. -/
example : ∃ t, download dlWorld (dlParse (-1)) "r" [("r", 0), ("r", 1)] = some (some t, [(.temp, 0), (.temp, 1)]) ∧
    load ⟨0, 0, -1⟩ t 1 = some [[20, 21, 22, 23, 20]] := by
  obtain ⟨t, h1, -, h2⟩ := C93_download_partial dlWorld_remote (parse := dlParse (-1)) (a := 7) (c := ⟨0, 0, -1⟩)
    (by decide +kernel) rfl (by decide) ⟨("r", 1), by decide, dlWorld_has⟩
  refine ⟨t, h1, ?_⟩
  rw [(h2 ("r", 1) (by decide)).1]
  decide +kernel

/-- The same store with a watermark is complete, yet does not load. -/
example : load ⟨0, 0, 5⟩ (dlWorld.files 1 "r") 1 = some [[20, 21, 22, 23, 24, 20]] ∧
    ∃ t, download dlWorld (dlParse 5) "r" [("r", 0), ("r", 1)] = some (some t, [(.temp, 0), (.temp, 1)]) ∧
      load ⟨0, 0, 5⟩ t 1 = none :=
  ⟨by decide +kernel, C93_timestamps_refuted dlWorld_remote (parse := dlParse 5) (a := 7) (c := ⟨0, 0, 5⟩) (by decide +kernel)
    rfl (by decide) (y := ("r", 1)) (by decide) dlWorld_has⟩

/-- Remote partition 0 and local partition 2 in this order raise; in the other order both are found. -/
example : download dlWorld (dlParse (-1)) "r" [("r", 0), ("l", 2)] = none :=
  C93_last_local_refuted dlWorld _ "r" [("r", 0)] ("l", 2) (by decide) (by decide) (by decide)

example : ∃ t, download dlWorld (dlParse (-1)) "r" ([("l", 2), ("r", 0)] ++ [("r", 1)]) =
    some (some t, [(.path "l", 2), (.temp, 0), (.temp, 1)]) ∧ load ⟨0, 0, -1⟩ (opened dlWorld (some t) (.path "l")) 2 =
      some [[40, 41, 42, 43, 40]] := by
  have e : ([("l", 2), ("r", 0)] ++ [("r", 1)]).filter (fun y => dlWorld.protocol y.1 != 0) = [("r", 0), ("r", 1)] := by
    decide +kernel
  obtain ⟨t, h1, h2⟩ := C93_mixed_partial (w := dlWorld) (k := 1) (path := "r") (parts := [("l", 2), ("r", 0)])
    (last := ("r", 1)) (by rw [e]; exact dlWorld_remote) (by decide) (parse := dlParse (-1)) (a := 7) (c := ⟨0, 0, -1⟩)
    (by decide +kernel) rfl (by decide) ⟨("r", 1), by decide, by decide, dlWorld_has⟩
  refine ⟨t, h1, ?_⟩
  show load ⟨0, 0, -1⟩ (dlWorld.files 0 "l") 2 = _
  decide +kernel

example : ((download dlWorld (dlParse (-1)) "r" [("l", 2), ("r", 0)]).bind fun x =>
    x.1.bind fun t => load ⟨0, 0, -1⟩ t 0) = some [[10, 11, 12, 13, 10]] := by decide +kernel

example : ∃ places, download dlWorld (dlParse (-1)) "l" [("l", 2)] = some (none, places) ∧
    places.map (fun x => opened dlWorld none x.1) = [dlWorld.files 0 "l"] := by
  obtain ⟨places, h1, -, h2⟩ := C93_local dlWorld (dlParse (-1)) "l" [("l", 2)] (by decide) (by decide)
  exact ⟨places, h1, h2⟩

/-- Remote metadata with local partitions only raises: there is nothing to ask for. -/
theorem C93_local_partitions_refuted {α : Type} (w : World α) (parse : α → Option Info) (path : String)
    (parts : List (String × Nat)) (hm : w.protocol path ≠ 0) (hl : ∀ y ∈ parts, w.protocol y.1 = 0) :
    download w parse path parts = none := by
  unfold download
  rw [if_neg hm]
  cases read (w.files (w.protocol path) path) metaName with
  | none => rfl
  | some a =>
    rw [Option.bind_some]
    cases parse a with
    | none => rfl
    | some c =>
      rw [Option.bind_some]
      have : (parts.flatMap fun y => if w.protocol y.1 = 0 then [] else (patterns c y.2).map fun x => (y.1, x)) = [] := by
        apply List.flatMap_eq_nil_iff.2
        intro y hy
        rw [if_pos (hl y hy)]
      simp only [this]
      rfl

example : download dlWorld (dlParse (-1)) "r" [("l", 2)] = none :=
  C93_local_partitions_refuted dlWorld _ "r" _ (by decide) (by decide)

/-- Partitions with one number from two remote directories overwrite each other: both places then hold the data of the second. -/
theorem C93_same_number_refuted : ∃ t, download dlWorld (dlParse (-1)) "r" [("r", 1), ("s", 1)] =
      some (some t, [(.temp, 1), (.temp, 1)]) ∧
    load ⟨0, 0, -1⟩ t 1 = some [[30, 31, 32, 33, 30]] ∧
    load ⟨0, 0, -1⟩ (dlWorld.files 1 "r") 1 = some [[20, 21, 22, 23, 20]] := by
  have h : ((download dlWorld (dlParse (-1)) "r" [("r", 1), ("s", 1)]).bind fun x => x.1.bind fun t => load ⟨0, 0, -1⟩ t 1) =
      some [[30, 31, 32, 33, 30]] := by decide +kernel
  have h2 : load ⟨0, 0, -1⟩ (dlWorld.files 1 "r") 1 = some [[20, 21, 22, 23, 20]] := by decide +kernel
  unfold download at h ⊢
  have e : dlWorld.protocol "r" = 1 := by decide
  have e2 : dlWorld.protocol "s" = 1 := by decide
  have e3 : read (dlWorld.files 1 "r") metaName = some 7 := by decide +kernel
  simp only [e, e3, dlParse, if_true, Option.bind_some, show ¬ (1 = 0) by decide, if_false, List.map_cons, List.map_nil, e2] at h ⊢
  revert h
  generalize fetch dlWorld _ _ = z
  intro h
  cases z with
  | none => cases h
  | some d =>
    refine ⟨_, rfl, ?_, h2⟩
    simpa using h

/-- The weighted sampler of edges looks for alias tables in the directory of the metadata: partitions in other directories have
no table there, although their own directory has it. -/
theorem C93_edge_alias_refuted : ∃ (metaDir partDir : Dir Nat), edgeTable false metaDir partDir 0 2 = some 46 ∧
    nodeTable metaDir partDir 0 2 = some 45 ∧ edgeTable true metaDir partDir 0 2 = none :=
  ⟨[(metaName, 7)], dlPart 2 40, by decide +kernel, by decide +kernel, by decide +kernel⟩

end DeepGNN
