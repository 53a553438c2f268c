import Verif.Props.C77

/-
C77 The dataset of Reddit posts.
-/

namespace DeepGNN

open Spec RawGraph EdgeList

variable {E : Encode Str} {C : WeightCodec} {m : Meta} {g : Graph}
variable {idMap : List (Str × Int)} {classes : List (Str × Nat)} {feat : Int → List Str} {nodes : List RedditNode}
  {links : List (Nat × Nat)} {keep : List Bool} {numbers : List Int} {files : PpiFiles}

namespace Reddit

/-- Links as integers. -/
def asInts (links : List (Nat × Nat)) : List (Int × Int) := links.map fun e => ((e.1 : Int), (e.2 : Int))

/-- The links that are kept, as numbers. -/
def keptInts (links : List (Nat × Nat)) (keep : List Bool) : List (Int × Int) :=
  ((links.zip keep).filter (·.2)).map fun x => ((x.1.1 : Int), (x.1.2 : Int))

/-- The nodes under their numbers. -/
def numbered (numbers : List Int) (nodes : List RedditNode) : List RawNode :=
  (numbers.zip nodes).map fun x => ⟨x.1, x.2.test, x.2.val⟩

theorem length_eq (h : RedditOk idMap classes feat nodes links keep numbers) : numbers.length = nodes.length := by
  simpa using (congrArg List.length h.nodes).symm

theorem addPpiLink_congr {keys ids : List Int} (hk : ∀ x, x ∈ keys ↔ x ∈ ids) (mask : List Bool) (idm : Int → Option Int) :
    addPpiLink idm keys mask = addPpiLink idm ids mask := by
  funext adj e
  simp only [addPpiLink, hk]

theorem lookup_at : ∀ {nodes : List RedditNode} {numbers : List Int}, nodes.map (fun n => idMap.lookup n.name) = numbers.map some →
    ∀ x ∈ numbers.zip nodes, idMap.lookup x.2.name = some x.1
  | [], numbers, _, x, hx => by simp at hx
  | n :: nodes, [], _, x, hx => by simp at hx
  | n :: nodes, i :: numbers, h, x, hx => by
    rw [List.map_cons, List.map_cons, List.cons.injEq] at h
    rw [List.zip_cons_cons] at hx
    rcases List.mem_cons.1 hx with rfl | hx
    · exact h.1
    · exact lookup_at h.2 x hx

theorem kept_eq : ∀ (links : List (Nat × Nat)) (keep : List Bool),
    (((asInts links).zip keep).filter (·.2)).map (·.1) = keptInts links keep
  | [], keep => by simp [asInts, keptInts]
  | e :: links, [] => by simp [asInts, keptInts]
  | e :: links, k :: keep => by
    have ih := kept_eq links keep
    rw [asInts, keptInts] at ih ⊢
    rw [List.map_cons, List.zip_cons_cons, List.zip_cons_cons]
    cases k
    · simpa using ih
    · simpa using ih

theorem mem_kept {e : Int × Int} (he : e ∈ keptInts links keep) : ∃ l ∈ links, e = ((l.1 : Int), (l.2 : Int)) := by
  obtain ⟨x, hx, rfl⟩ := List.mem_map.1 he
  exact ⟨x.1, (List.of_mem_zip (a := x.1) (b := x.2) (List.mem_filter.1 hx).1).1, rfl⟩

theorem onehot_class {c : Nat} (hc : c < 50) : onehot c 50 = some (classLabel c) := by
  rw [onehot, if_pos hc]; rfl

/-- The entry of a node in the map of labels. -/
theorem labels_lookup (h : RedditOk idMap classes feat nodes links keep numbers) :
    ∃ labels, redditLabels idMap classes = some labels ∧ ∀ x ∈ numbers.zip nodes, ∃ c, (x.2.name, c) ∈ classes ∧
      labels.reverse.lookup x.1 = some (classLabel c) := by
  have hlen := length_eq h
  have hnum : ∀ c ∈ classes, ∃ x ∈ numbers.zip nodes, x.2.name = c.1 ∧ idMap.lookup c.1 = some x.1 := by
    intro c hc
    have := h.classes.1.mem_iff.1 (List.mem_map.2 ⟨c, hc, rfl⟩)
    obtain ⟨n, hn, e⟩ := List.mem_map.1 this
    rw [← List.map_snd_zip (l₁ := numbers) (l₂ := nodes) (by omega)] at hn
    obtain ⟨x, hx, rfl⟩ := List.mem_map.1 hn
    exact ⟨x, hx, e, by rw [← e]; exact lookup_at h.nodes x hx⟩
  have hl : redditLabels idMap classes = some (classes.map fun c => ((idMap.lookup c.1).getD 0, classLabel c.2)) := by
    rw [redditLabels]
    apply mapM_of_map_some
    rw [List.map_map]
    apply List.map_congr_left
    intro c hc
    obtain ⟨x, -, -, e⟩ := hnum c hc
    rw [Function.comp, e, Option.bind_some, onehot_class (h.classes.2 c hc)]
    rfl
  refine ⟨_, hl, fun x hx => ?_⟩
  have hxn : x.2.name ∈ classes.map (·.1) :=
    h.classes.1.mem_iff.2 (List.mem_map.2 ⟨x.2, (List.of_mem_zip (a := x.1) (b := x.2) hx).2, rfl⟩)
  have hxl := lookup_at h.nodes x hx
  obtain ⟨d, hd, hdn⟩ := List.mem_map.1 hxn
  cases hv : (classes.map fun c => ((idMap.lookup c.1).getD 0, classLabel c.2)).reverse.lookup x.1 with
  | none =>
    exfalso
    rw [List.lookup_eq_none_iff] at hv
    have := hv _ (List.mem_reverse.2 (List.mem_map.2 ⟨d, hd, rfl⟩))
    simp only at this
    rw [hdn, hxl] at this
    simp at this
  | some v =>
    obtain ⟨l₁, l₂, e, -⟩ := List.lookup_eq_some_iff.1 hv
    have hm : (x.1, v) ∈ (classes.map fun c => ((idMap.lookup c.1).getD 0, classLabel c.2)) :=
      List.mem_reverse.1 (by rw [e]; simp)
    obtain ⟨c, hc, e⟩ := List.mem_map.1 hm
    obtain ⟨e1, e2⟩ := Prod.mk.inj e
    obtain ⟨y, hy, en, el⟩ := hnum c hc
    rw [el] at e1
    have : y = x := by
      obtain ⟨i, hi, ei⟩ := List.getElem_of_mem hy
      obtain ⟨j, hj, ej⟩ := List.getElem_of_mem hx
      have hi' : i < numbers.length := by rw [List.length_zip] at hi; omega
      have hj' : j < numbers.length := by rw [List.length_zip] at hj; omega
      have a : numbers[i] = y.1 := by rw [← ei, List.getElem_zip]
      have b : numbers[j] = x.1 := by rw [← ej, List.getElem_zip]
      have e1 : y.1 = x.1 := e1
      have : i = j := (List.getElem_inj h.nodup).1 (by rw [a, b, e1])
      subst this
      rw [← ei, ← ej]
    subst this
    exact ⟨c.2, en ▸ hc, by rw [e2]⟩

/-- Distinct numbers below their count are all the numbers below it. -/
theorem mem_numbers (hn : numbers.Nodup) (hr : ∀ i ∈ numbers, 0 ≤ i ∧ i < numbers.length) {k : Nat} (hk : k < numbers.length) :
    (k : Int) ∈ numbers := by
  apply Classical.byContradiction
  intro hc
  have hsub : numbers ⊆ ((List.range numbers.length).map fun i : Nat => (i : Int)).erase (k : Int) := by
    intro x hx
    have hx' := hr x hx
    rw [List.mem_erase_of_ne (fun (e : x = (k : Int)) => hc (by rw [← e]; exact hx)), List.mem_map]
    exact ⟨x.toNat, List.mem_range.2 (by omega), by omega⟩
  have := hn.length_le_of_subset hsub
  rw [List.length_erase_of_mem (List.mem_map.2 ⟨k, List.mem_range.2 hk, rfl⟩), List.length_map, List.length_range] at this
  omega

theorem numbers_pos (h : RedditOk idMap classes feat nodes links keep numbers) : 0 < numbers.length := by
  obtain ⟨n, hn, -⟩ := h.train
  rw [length_eq h]
  exact List.length_pos_of_mem hn

/-- The nodes of a kind. -/
theorem kinds (t : Int) : ((((numbers.zip nodes).map fun x => (x.1, redditType x.2)).filter (·.2 = t)).map (·.1)) =
    ((numbers.zip nodes).filter fun x => redditType x.2 = t).map (·.1) := by
  rw [List.filter_map, List.map_map]
  rfl

/-- Reddit is built like proteins whose links are between numbers. -/
theorem bridge (h : RedditOk idMap classes feat nodes links keep numbers) :
    ∃ label : Int → List Str, buildReddit idMap classes feat nodes (asInts links) keep =
        buildPpi some feat label (numbered numbers nodes) (keptInts links keep) ∧
      (∀ x ∈ numbers.zip nodes, ∃ c, (x.2.name, c) ∈ classes ∧ label x.1 = classLabel c) := by
  obtain ⟨labels, hl, hx⟩ := labels_lookup h
  have hlen := length_eq h
  refine ⟨fun i => (labels.reverse.lookup i).getD [], ?_, fun x hm => ?_⟩
  · have ht : (nodes.mapM fun n => (idMap.lookup n.name).map fun i => (i, redditType n)) =
        some ((numbers.zip nodes).map fun x => (x.1, redditType x.2)) := by
      apply mapM_of_map_some
      rw [List.map_map]
      conv => lhs; rw [← List.map_snd_zip (l₁ := numbers) (l₂ := nodes) (by omega)]
      rw [List.map_map]
      apply List.map_congr_left
      intro x hm
      rw [Function.comp, lookup_at h.nodes x hm]
      rfl
    have ht' : ((numbered numbers nodes).mapM fun n => (some n.id).map fun i => (i, ppiType n)) =
        some ((numbers.zip nodes).map fun x => (x.1, redditType x.2)) := by
      apply mapM_of_map_some
      rw [List.map_map, numbered, List.map_map]
      rfl
    have hids : ((numbers.zip nodes).map fun x => (x.1, redditType x.2)).map (·.1) = numbers := by
      rw [List.map_map]
      have : ((fun x : Int × Int => x.1) ∘ fun x : Int × RedditNode => (x.1, redditType x.2)) = Prod.fst := rfl
      rw [this, List.map_fst_zip (by omega)]
    have hzero : ((labels.reverse.lookup 0).isNone) = false := by
      have := mem_numbers h.nodup h.range (numbers_pos h)
      rw [← List.map_fst_zip (l₁ := numbers) (l₂ := nodes) (by omega)] at this
      obtain ⟨x, hm, e⟩ := List.mem_map.1 this
      obtain ⟨c, -, hc⟩ := hx x hm
      have e : x.1 = 0 := e
      rw [← e, hc]
      rfl
    rw [buildReddit, ht, Option.bind_some, buildPpi, ht', Option.bind_some]
    dsimp only
    rw [hids, kept_eq]
    have hlink : ∀ mask, addPpiLink some (idMap.map (·.2)) mask = addPpiLink some numbers mask :=
      fun mask => addPpiLink_congr (fun x => h.values.mem_iff) mask some
    simp only [hlink]
    have hmask : ∀ train, trainMask (idMap.map (·.2)) train = trainMask numbers train := by
      intro train
      rw [trainMask, trainMask, h.values.length_eq]
    rw [hmask]
    apply congrArg
    funext mask
    apply congrArg
    funext adj
    rw [hl, Option.bind_some, hzero]
    simp only [Bool.false_eq_true, false_or]
    by_cases hem : (((numbers.zip nodes).map fun x => (x.1, redditType x.2)).filter (·.2 = 0)) = []
    · rw [hem]; rfl
    · have h1 : (((((numbers.zip nodes).map fun x => (x.1, redditType x.2)).filter (·.2 = 0)).map (·.1)).isEmpty = true) ↔ False := by
        simpa using hem
      have h2 : ((((numbers.zip nodes).map fun x => (x.1, redditType x.2)).filter (·.2 = 0)).isEmpty = true) ↔ False := by
        simpa using hem
      rw [if_neg h1.1, if_neg h2.1]
      have hb : (((numbers.zip nodes).map fun x => (x.1, redditType x.2)).mapM fun x => (labels.reverse.lookup x.1).map fun l =>
          (⟨x.1, x.2, l, feat x.1, adj.1 x.1, adj.2 x.1⟩ : Block)) =
          some (((numbers.zip nodes).map fun x => (x.1, redditType x.2)).map fun x =>
            (⟨x.1, x.2, (labels.reverse.lookup x.1).getD [], feat x.1, adj.1 x.1, adj.2 x.1⟩ : Block)) := by
        apply mapM_of_map_some
        rw [List.map_map, List.map_map, List.map_map]
        apply List.map_congr_left
        intro x hm
        obtain ⟨c, -, hc⟩ := hx x hm
        simp only [Function.comp]
        rw [hc]
        rfl
      rw [hb]
      rfl
  · obtain ⟨c, hc, e⟩ := hx x hm
    exact ⟨c, hc, by dsimp only; rw [e]; rfl⟩

theorem label_ok (c : Nat) : classLabel c ≠ [] ∧ ∀ x ∈ classLabel c, ',' ∉ x := by
  refine ⟨by simp [classLabel], fun x hx => ?_⟩
  obtain ⟨i, -, rfl⟩ := List.mem_map.1 hx
  split <;> decide

/-- What is written, in terms of the links as numbers. -/
theorem as_ppi (h : RedditOk idMap classes feat nodes links keep numbers) :
    ∃ label : Int → List Str, buildReddit idMap classes feat nodes (asInts links) keep =
        buildPpi some feat label (numbered numbers nodes) (keptInts links keep) ∧
      PpiOk some feat label (numbered numbers nodes) (keptInts links keep) numbers (keptInts links keep) ∧
      (∀ x ∈ numbers.zip nodes, ∃ c, (x.2.name, c) ∈ classes ∧ label x.1 = classLabel c) := by
  have hlen := length_eq h
  obtain ⟨label, h1, h2⟩ := bridge h
  refine ⟨label, h1, ⟨?_, ?_, h.nodup, h.range, h.small, rfl, ?_, ?_⟩, h2⟩
  · obtain ⟨n, hn, t⟩ := h.train
    rw [← List.map_snd_zip (l₁ := numbers) (l₂ := nodes) (by omega)] at hn
    obtain ⟨x, hx, rfl⟩ := List.mem_map.1 hn
    exact ⟨_, List.mem_map.2 ⟨x, hx, rfl⟩, t⟩
  · rw [numbered, List.map_map]
    conv => rhs; rw [← List.map_fst_zip (l₁ := numbers) (l₂ := nodes) (by omega)]
    rw [List.map_map]
    rfl
  · intro e he
    obtain ⟨l, hm, rfl⟩ := mem_kept he
    have := h.known l hm
    exact ⟨mem_numbers h.nodup h.range this.1, mem_numbers h.nodup h.range this.2⟩
  · intro i hi
    have hi' := hi
    rw [← List.map_fst_zip (l₁ := numbers) (l₂ := nodes) (by omega)] at hi'
    obtain ⟨x, hx, rfl⟩ := List.mem_map.1 hi'
    obtain ⟨c, -, e⟩ := h2 x hx
    rw [e]
    exact ⟨(label_ok c).1, (label_ok c).2, h.features _ hi⟩

theorem zip_numbered (hlen : numbers.length = nodes.length) (p : Bool → Bool → Bool) :
    ((numbers.zip (numbered numbers nodes)).filter fun x => p x.2.test x.2.val).map (·.1) =
      ((numbers.zip nodes).filter fun x => p x.2.test x.2.val).map (·.1) := by
  induction nodes generalizing numbers with
  | nil => cases numbers <;> simp [numbered]
  | cons n nodes ih =>
    cases numbers with
    | nil => simp [numbered]
    | cons i numbers =>
      have ih := ih (numbers := numbers) (by simpa using hlen)
      rw [numbered] at ih ⊢
      rw [List.zip_cons_cons, List.map_cons, List.zip_cons_cons, List.filter_cons, List.filter_cons]
      dsimp only
      split
      · rw [List.map_cons, List.map_cons, ih]
      · exact ih

theorem zip_mem (hlen : numbers.length = nodes.length) {n : Int} {raw : RedditNode} (hn : (n, raw) ∈ numbers.zip nodes) :
    (n, (⟨n, raw.test, raw.val⟩ : RawNode)) ∈ numbers.zip (numbered numbers nodes) := by
  induction nodes generalizing numbers with
  | nil => simp at hn
  | cons a nodes ih =>
    cases numbers with
    | nil => simp at hn
    | cons i numbers =>
      rw [numbered, List.zip_cons_cons, List.map_cons, List.zip_cons_cons]
      rw [List.zip_cons_cons] at hn
      rcases List.mem_cons.1 hn with e | hn
      · obtain ⟨rfl, rfl⟩ := Prod.mk.inj e
        exact List.mem_cons_self
      · exact List.mem_cons_of_mem _ (ih (by simpa using hlen) hn)

end Reddit

open Reddit

/-- Reddit: the files can be written, every node is in the file of its kind. -/
theorem C77_reddit_files (h : RedditOk idMap classes feat nodes links keep numbers) :
    ∃ files, buildReddit idMap classes feat nodes (asInts links) keep = some files ∧
      files.train = ((numbers.zip nodes).filter fun x => ¬ x.2.test ∧ ¬ x.2.val).map (·.1) ∧
      files.val = ((numbers.zip nodes).filter fun x => ¬ x.2.test ∧ x.2.val).map (·.1) ∧
      files.test = ((numbers.zip nodes).filter fun x => x.2.test).map (·.1) := by
  obtain ⟨label, h1, h2, -⟩ := as_ppi h
  obtain ⟨files, e, t, v, s⟩ := C77_ppi_files h2
  have hlen := length_eq h
  refine ⟨files, h1.trans e, ?_, ?_, ?_⟩
  · rw [t]; exact zip_numbered hlen fun a b => decide (¬ a ∧ ¬ b)
  · rw [v]; exact zip_numbered hlen fun a b => decide (¬ a ∧ b)
  · rw [s]; exact zip_numbered hlen fun a _ => a

/-- Reddit: the files are accepted and loaded. -/
theorem C77_reddit_converts (h : RedditOk idMap classes feat nodes links keep numbers)
    (hb : buildReddit idMap classes feat nodes (asInts links) keep = some files)
    {count : Nat} {to : List Nat} (hl : to.length = (graphLines true files.blocks).length) (ht : ∀ x ∈ to, x < count)
    (hw : C.Valid (E.weight "1.0".toList)) (hm : m.watermark < 0) (hf : 2 ≤ m.nodeFeatureCount) :
    ∃ recs, decodeParts listConfig listParse E (dealt count to (graphLines true files.blocks)) = some recs ∧
      ((∀ calls ∈ recs, inputSize calls + 24 < 2 ^ 64) →
        ∃ fs g, recs.mapM (convertPartition C none) = some fs ∧ loadGraph C m (fs.map fun f => [f]) = some g ∧
          ServedFrom E C m (graphLines true files.blocks) g) := by
  obtain ⟨label, h1, h2, -⟩ := as_ppi h
  rw [h1] at hb
  exact C77_ppi_converts h2 hb hl ht hw hm hf

/-- Reddit: the type of a node is its kind, its first feature is one at the class of the node, its second one the features. -/
theorem C77_reddit_nodes (h : RedditOk idMap classes feat nodes links keep numbers)
    (hb : buildReddit idMap classes feat nodes (asInts links) keep = some files)
    (hs : ServedFrom E C m (graphLines true files.blocks) g) {n : Int} {raw : RedditNode} (hn : (n, raw) ∈ numbers.zip nodes) (d : Int)
    (size0 size1 : Nat) (out : Bytes) (hout : out.length = size0 + size1) :
    g.nodeType1 d n = some (if raw.test then 2 else if raw.val then 1 else 0) ∧
    ∃ c, (raw.name, c) ∈ classes ∧ g.nodeFeature [n] none [(0, size0), (1, size1)] out =
      some (fit size0 ((classLabel c).flatMap (E.number "float32".toList)) ++ fit size1 ((feat n).flatMap (E.number "float32".toList))) := by
  obtain ⟨label, h1, h2, h3⟩ := as_ppi h
  rw [h1] at hb
  obtain ⟨c, hc, e⟩ := h3 _ hn
  obtain ⟨t, f⟩ := C77_ppi_nodes h2 hb hs (zip_mem (length_eq h) hn) d size0 size1 out hout
  refine ⟨t, c, hc, ?_⟩
  rw [f, e]

/-- The neighbours served are those of the links read as numbers. -/
theorem reddit_neighbors (h : RedditOk idMap classes feat nodes links keep numbers)
    (hb : buildReddit idMap classes feat nodes (asInts links) keep = some files)
    (hs : ServedFrom E C m (graphLines true files.blocks) g) {n : Int} (hn : n ∈ numbers) {types : List Int} (ht : types.Pairwise (· < ·)) :
    ∃ nbrs, g.fullNeighbor [n] none types = some (nbrs, [nbrs.length]) ∧ (nbrs.map fun x => (x.dst, x.typ)).Perm
      (((undirected (keptInts links keep) n).map fun p => (p, if n ∈ files.train ∧ p ∈ files.train then (0 : Int) else 1)).filter
        fun x => x.2 ∈ types) := by
  obtain ⟨label, h1, h2, -⟩ := as_ppi h
  rw [h1] at hb
  exact C77_ppi_neighbors h2 hb hs hn ht

/-- Reddit, if nodes are numbered by their positions in the file: neighbours are those of the links that were kept, in both directions;
over type 0 if both are training nodes. -/
theorem C77_reddit_neighbors_partial (h : RedditOk idMap classes feat nodes links keep numbers)
    (horder : numbers = (List.range nodes.length).map fun i : Nat => (i : Int))
    (hb : buildReddit idMap classes feat nodes (asInts links) keep = some files)
    (hs : ServedFrom E C m (graphLines true files.blocks) g) {n : Int} (hn : n ∈ numbers) {types : List Int} (ht : types.Pairwise (· < ·)) :
    ∃ nbrs, g.fullNeighbor [n] none types = some (nbrs, [nbrs.length]) ∧ (nbrs.map fun x => (x.dst, x.typ)).Perm
      (((undirected (keptEdges numbers links keep) n).map fun p => (p, if n ∈ files.train ∧ p ∈ files.train then (0 : Int) else 1)).filter
        fun x => x.2 ∈ types) := by
  have : keptEdges numbers links keep = keptInts links keep := by
    rw [keptEdges, keptInts]
    apply List.map_congr_left
    intro x hx
    have hk := h.known x.1 (List.of_mem_zip (a := x.1) (b := x.2) (List.mem_filter.1 hx).1).1
    have hg : ∀ k, k < numbers.length → numbers.getD k 0 = (k : Int) := by
      intro k hk
      rw [horder] at hk ⊢
      rw [List.length_map, List.length_range] at hk
      simp [List.getD_eq_getElem?_getD, List.getElem?_map, List.getElem?_range hk]
    rw [hg _ hk.1, hg _ hk.2]
  rw [this]
  exact reddit_neighbors h hb hs hn ht

/-- Reddit, otherwise: for every node whose number is not its position, a link from the node to itself is not served at the node. -/
theorem C77_reddit_neighbors_refuted {i : Nat} {n : Int} (h : RedditOk idMap classes feat nodes [(i, i)] [true] numbers)
    (hi : numbers[i]? = some n) (hne : n ≠ i)
    (hb : buildReddit idMap classes feat nodes (asInts [(i, i)]) [true] = some files)
    (hs : ServedFrom E C m (graphLines true files.blocks) g) {types : List Int} (ht : types.Pairwise (· < ·)) :
    undirected (keptEdges numbers [(i, i)] [true]) n = [n] ∧ g.fullNeighbor [n] none types = some ([], [0]) := by
  obtain ⟨nbrs, e, hp⟩ := reddit_neighbors h hb hs (List.mem_of_getElem? hi) ht
  constructor
  · simp [undirected, keptEdges, hi]
  · have : undirected (keptInts [(i, i)] [true]) n = [] := by
      simp [undirected, keptInts, Ne.symm hne]
    rw [this, List.map_nil, List.filter_nil] at hp
    have := hp.length_eq
    rw [List.length_map, List.length_nil, List.length_eq_zero_iff] at this
    rw [e, this]
    rfl

/-- False for proteins without training nodes: the scaler fails, whatever the nodes and links. -/
theorem C77_ppi_no_training_refuted {idm : Int → Option Int} {label : Int → List Str} {raw : List RawNode} {pairs : List (Int × Int)}
    (hn : ∀ n ∈ raw, n.test = true ∨ n.val = true) : buildPpi idm feat label raw pairs = none := by
  cases hb : buildPpi idm feat label raw pairs with
  | none => rfl
  | some files =>
    obtain ⟨typed, h1, hb⟩ := Option.bind_eq_some_iff.1 hb
    obtain ⟨mask, -, hb⟩ := Option.bind_eq_some_iff.1 hb
    obtain ⟨adj, -, hb⟩ := Option.bind_eq_some_iff.1 hb
    have : typed.filter (·.2 = 0) = [] := by
      rw [List.filter_eq_nil_iff]
      intro x hx
      obtain ⟨n, hm, e⟩ := mem_of_mapM_some h1 x hx
      obtain ⟨i, -, e⟩ := Option.map_eq_some_iff.1 e
      rw [← e]
      rcases hn n hm with h | h
      · simp [ppiType, h]
      · simp only [ppiType, h]; split <;> simp
    rw [this] at hb
    exact absurd hb (by simp)

/-- Three posts numbered by their positions; the second link is not kept. -/
def redditMap : List (Str × Int) := [("a".toList, 0), ("c".toList, 2), ("b".toList, 1)]

def redditClasses : List (Str × Nat) := [("c".toList, 49), ("a".toList, 3), ("b".toList, 0)]

def redditNodes : List RedditNode := [⟨"a".toList, false, false⟩, ⟨"b".toList, false, false⟩, ⟨"c".toList, true, true⟩]

theorem redditOk : RedditOk redditMap redditClasses (fun _ => ["0.5".toList]) redditNodes [(0, 1), (1, 2), (0, 2), (1, 1)]
    [true, false, true, true] [0, 1, 2] :=
  ⟨⟨_, List.mem_cons_self, rfl, rfl⟩, by decide, by decide, by decide, by decide, by decide, by decide, by decide, by decide, by decide⟩

/-- The conditions of the theorems on Reddit are met, with two partitions; the neighbours are those of the links that were kept. -/
example : ∃ files g, buildReddit redditMap redditClasses (fun _ => ["0.5".toList]) redditNodes (asInts [(0, 1), (1, 2), (0, 2), (1, 1)])
      [true, false, true, true] = some files ∧
    files.train = [0, 1] ∧ files.val = [] ∧ files.test = [2] ∧ ServedFrom rawEncode intCodec ⟨2, 0, -1⟩ (graphLines true files.blocks) g ∧
    (g.fullNeighbor [1] none [0, 1]).map (fun x => x.1.map fun y => (y.dst, y.typ)) = some [(1, 0), (0, 0)] := by
  have hb : (buildReddit redditMap redditClasses (fun _ => ["0.5".toList]) redditNodes (asInts [(0, 1), (1, 2), (0, 2), (1, 1)])
      [true, false, true, true]).map (fun ppi =>
      decide (ppi.train = [0, 1] ∧ ppi.val = [] ∧ ppi.test = [2] ∧ (graphLines true ppi.blocks).length = 11)) = some true := by decide +kernel
  have hg : ((buildReddit redditMap redditClasses (fun _ => ["0.5".toList]) redditNodes (asInts [(0, 1), (1, 2), (0, 2), (1, 1)])
      [true, false, true, true]).bind fun ppi =>
      (decodeParts listConfig listParse rawEncode (dealt 2 [0, 1, 0, 1, 0, 1, 0, 1, 0, 1, 0] (graphLines true ppi.blocks))).bind fun recs =>
      (recs.mapM (convertPartition intCodec none)).bind fun fs => (loadGraph intCodec ⟨2, 0, -1⟩ (fs.map fun f => [f])).map fun g =>
        decide ((∀ calls ∈ recs, inputSize calls + 24 < 2 ^ 64) ∧
          (g.fullNeighbor [1] none [0, 1]).map (fun x => x.1.map fun y => (y.dst, y.typ)) = some [(1, 0), (0, 0)])) = some true := by
    decide +kernel
  obtain ⟨ppi, h0, h1⟩ := Option.map_eq_some_iff.1 hb
  have h1 := of_decide_eq_true h1
  rw [h0, Option.bind_some] at hg
  obtain ⟨recs, e1, hg⟩ := Option.bind_eq_some_iff.1 hg
  obtain ⟨fs, e2, hg⟩ := Option.bind_eq_some_iff.1 hg
  obtain ⟨g, e3, hg⟩ := Option.map_eq_some_iff.1 hg
  have hg := of_decide_eq_true hg
  obtain ⟨recs', f1, f2⟩ := C77_reddit_converts (E := rawEncode) (C := intCodec) (m := ⟨2, 0, -1⟩) (count := 2)
    (to := [0, 1, 0, 1, 0, 1, 0, 1, 0, 1, 0]) redditOk h0 (by rw [h1.2.2.2]; rfl) (by decide)
    (show -(2 : Int) ^ 24 ≤ 1 ∧ (1 : Int) ≤ 2 ^ 24 by decide) (by decide) (by decide)
  rw [e1, Option.some.injEq] at f1
  subst f1
  obtain ⟨fs', g', f3, f4, f5⟩ := f2 hg.1
  rw [e2, Option.some.injEq] at f3
  subst f3
  rw [e3, Option.some.injEq] at f4
  subst f4
  exact ⟨ppi, g, h0, h1.1, h1.2.1, h1.2.2.1, f5, hg.2⟩

/-- Posts numbered in another order: the conditions of the refutation are met (position 0 has the number 2). -/
example : RedditOk redditMap redditClasses (fun _ => ["0.5".toList]) redditNodes.reverse [(0, 0)] [true] [2, 1, 0] ∧
    ([2, 1, 0] : List Int)[0]? = some 2 ∧
    (buildReddit redditMap redditClasses (fun _ => ["0.5".toList]) redditNodes.reverse (asInts [(0, 0)]) [true]).map
      (fun f => f.blocks.map fun b => (b.id, b.train, b.other)) = some [(2, [], []), (1, [], []), (0, [0], [])] :=
  ⟨⟨⟨⟨"a".toList, false, false⟩, by simp [redditNodes], rfl, rfl⟩, by decide, by decide, by decide, by decide, by decide, by decide, by decide, by decide,
    by decide⟩, rfl, by decide +kernel⟩

end DeepGNN
