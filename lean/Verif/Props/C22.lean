import Verif.Proofs.SamplerFiles

/-
C22 Sampler returns the requested number of elements of the requested types.
`parts` are the records given to each partition's writer.  `outTypes` and `out` are the previous contents of
the output arrays; their length is the requested number.
-/

namespace DeepGNN

variable {C : WeightCodec}

/-- Requirements on the node records: types and ids in range, weights representable and not negative, and
every type that occurs in a partition has a positive total weight there. -/
structure C22_nodesOk (C : WeightCodec) (parts : List (List Rec)) : Prop where
  range : ∀ recs ∈ parts, ∀ r ∈ recs, r.dst = -1 → 0 ≤ r.typ ∧ 0 ≤ r.src ∧ r.src < 2 ^ 63
  weight : ∀ recs ∈ parts, ∀ r ∈ recs, r.dst = -1 → C.Valid r.weight ∧ 0 ≤ r.weight
  pos : ∀ recs ∈ parts, ∀ t, C21_nodes recs t ≠ [] → 0 < ((C21_nodes recs t).map (·.2)).sum

/-- The same for edge records. -/
structure C22_edgesOk (C : WeightCodec) (parts : List (List Rec)) : Prop where
  range : ∀ recs ∈ parts, ∀ r ∈ recs, r.dst ≠ -1 → 0 ≤ r.typ ∧ 0 ≤ r.src ∧ r.src < 2 ^ 63 ∧
    0 ≤ r.dst ∧ r.dst < 2 ^ 63
  weight : ∀ recs ∈ parts, ∀ r ∈ recs, r.dst ≠ -1 → C.Valid r.weight ∧ 0 ≤ r.weight
  pos : ∀ recs ∈ parts, ∀ t, C21_edges recs t ≠ [] → 0 < ((C21_edges recs t).map (·.2)).sum

/-- All elements of the known requested types, with their types. `els recs t`: the elements of type `t` of a
partition, with weights. -/
def C22_available {α} (els : List Rec → Nat → List (α × Int)) (parts : List (List Rec)) (typeCount : Nat)
    (types : List Int) : List (Int × α) :=
  (knownTypes typeCount types).flatMap fun t => parts.flatMap fun recs =>
    (els recs t.toNat).map fun e => (t, e.1)

theorem nodeAliasOf_file {parts : List (List Rec)} (h : C22_nodesOk C parts) (types : List Int) (typeCount : Nat) :
    ∀ recs ∈ parts, ∀ t ∈ knownTypes typeCount types,
      ∃ f, nodeAliasOf C recs t = some f ∧ FileOf (C21_nodes recs t.toNat) f := by
  intro recs hr t _
  obtain ⟨a, h1, h2⟩ := nodeAliasInput_spec recs (h.range recs hr)
  obtain ⟨f, h3, h4⟩ := aliasFile_fileOf C 0 (C21_nodes recs t.toNat) (by
    intro x hx
    simp only [C21_nodes, List.mem_map, List.mem_filter, decide_eq_true_eq] at hx
    obtain ⟨r, ⟨h5, h6, -⟩, rfl⟩ := hx
    exact h.weight recs hr r h5 h6) (h.pos recs hr t.toNat)
  exact ⟨_, by simp only [nodeAliasOf, h1, Option.bind_some, h2, h3, Option.map_some], h4⟩

theorem edgeAliasOf_file {parts : List (List Rec)} (h : C22_edgesOk C parts) (types : List Int) (typeCount : Nat) :
    ∀ recs ∈ parts, ∀ t ∈ knownTypes typeCount types,
      ∃ f, edgeAliasOf C recs t = some f ∧ FileOf (C21_edges recs t.toNat) f := by
  intro recs hr t _
  obtain ⟨a, h1, h2⟩ := edgeAliasInput_spec recs (h.range recs hr)
  obtain ⟨f, h3, h4⟩ := aliasFile_fileOf C (0, 0) (C21_edges recs t.toNat) (by
    intro x hx
    simp only [C21_edges, List.mem_map, List.mem_filter, decide_eq_true_eq] at hx
    obtain ⟨r, ⟨h5, h6, -⟩, rfl⟩ := hx
    exact h.weight recs hr r h5 h6) (h.pos recs hr t.toNat)
  exact ⟨_, by simp only [edgeAliasOf, h1, Option.bind_some, h2, h3, Option.map_some], h4⟩

theorem le_sum_of_mem {l : List Nat} {x : Nat} (h : x ∈ l) : x ≤ l.sum := by
  induction l with
  | nil => exact absurd h (by simp)
  | cons a l ih =>
    rw [List.sum_cons]
    rcases List.mem_cons.1 h with rfl | h
    · omega
    · have := ih h; omega

theorem sublist_flatMap_of_mem {α β} {l : List α} {f : α → List β} {a : α} (h : a ∈ l) :
    (f a).Sublist (l.flatMap f) := by
  induction l with
  | nil => exact absurd h (by simp)
  | cons b l ih =>
    rw [List.flatMap_cons]
    rcases List.mem_cons.1 h with rfl | h
    · exact List.sublist_append_left _ _
    · exact (ih h).trans (List.sublist_append_right _ _)

/-- With replacement, for any kind of partition. -/
theorem C22_with_generic {α} [DecidableEq α] (parts : List (List Rec)) (els : List Rec → Nat → List (α × Int))
    (file : List Rec → Int → Option (Nat × List (AliasRec α)))
    (mk : Nat × List (AliasRec α) → SamplerPart α) (mkEls : Nat × List (AliasRec α) → List α)
    (P : α × Int → Prop)
    (hmk : ∀ l f, FileOf l f → PartWith (mk f) (mkEls f) ∧ ((∃ e, e ∈ l) → 0 < (mk f).weight) ∧
      ∀ x ∈ mkEls f, ∃ e ∈ l, e.1 = x ∧ P e)
    (typeCount : Nat) (types : List Int)
    (h : ∀ p ∈ parts, ∀ t ∈ knownTypes typeCount types, ∃ f, file p t = some f ∧ FileOf (els p t.toNat) f)
    (R : Draws) (s : Nat) (outTypes : List Int) (out : List α) (hl : out.length = outTypes.length)
    (hne : C22_available els parts typeCount types ≠ []) :
    ∃ smp tys os, createSampler typeCount (fun t => (parts.mapM fun p => file p t).map fun fs => fs.map mk) types =
        some smp ∧ samplerSample true R smp s outTypes out = some (tys, os) ∧
      tys.length = outTypes.length ∧ os.length = outTypes.length ∧
      ∀ y ∈ tys.zip os, y.1 ∈ types ∧ ∃ recs ∈ parts, ∃ e ∈ els recs y.1.toNat, e.1 = y.2 ∧ P e := by
  obtain ⟨ts, h1, h2, h3⟩ := createSampler_spec typeCount types parts file (fun p t => els p t.toNat) mk mkEls h
  obtain ⟨tys, os, s', e1, e2, e3, e4⟩ := sampleTypes_with R
    (ts.map fun t => (t.1, t.2.map fun p => (mk p.2, mkEls p.2))) outTypes.length s out (by
      intro t ht p hp
      obtain ⟨t, ht', rfl⟩ := List.mem_map.1 ht
      obtain ⟨p, hp', rfl⟩ := List.mem_map.1 hp
      exact (hmk _ _ ((h3 t ht').2 p hp')).1) (by omega) (by
      left
      obtain ⟨y, hy⟩ := List.exists_mem_of_ne_nil _ hne
      simp only [C22_available, List.mem_flatMap, List.mem_map] at hy
      obtain ⟨t, ht, recs, hr, e, he, -⟩ := hy
      rw [← h2] at ht
      obtain ⟨t, ht', rfl⟩ := List.mem_map.1 ht
      obtain ⟨h4, h5⟩ := h3 t ht'
      rw [← h4] at hr
      obtain ⟨p, hp, rfl⟩ := List.mem_map.1 hr
      have h6 := (hmk _ _ (h5 p hp)).2.1 ⟨e, he⟩
      have h7 : (mk p.2).weight ≤ weightSum ((t.2.map fun p => (mk p.2, mkEls p.2)).map (·.1)) := by
        simp only [weightSum, List.map_map]
        exact le_sum_of_mem (List.mem_map.2 ⟨p, hp, rfl⟩)
      have h8 : weightSum ((t.2.map fun p => (mk p.2, mkEls p.2)).map (·.1)) ≤
          SamplerSpec.total (ts.map fun t => (t.1, t.2.map fun p => (mk p.2, mkEls p.2))) := by
        simp only [SamplerSpec.total, List.map_map]
        exact le_sum_of_mem (List.mem_map.2 ⟨t, ht', by simp only [Function.comp, List.map_map]⟩)
      omega)
  refine ⟨_, tys, os, h1, ?_, e2, e3, ?_⟩
  · simp only [samplerSample]
    rw [e1]
    simp only [Option.map_some]
    rw [e2, List.drop_length, List.append_nil, ← hl, List.drop_length, List.append_nil]
  · intro y hy
    have := e4 y hy
    simp only [SamplerSpec.population, List.mem_flatMap, List.mem_map] at this
    obtain ⟨t', ⟨t, ht, rfl⟩, x, ⟨p', hp', hx⟩, rfl⟩ := this
    obtain ⟨p, hp, rfl⟩ := List.mem_map.1 hp'
    obtain ⟨h4, h5⟩ := h3 t ht
    have ht' : t.1 ∈ knownTypes typeCount types := by rw [← h2]; exact List.mem_map_of_mem ht
    refine ⟨(mem_knownTypes.1 ht').1, p.1, by rw [← h4]; exact List.mem_map_of_mem hp, ?_⟩
    exact (hmk _ _ (h5 p hp)).2.2 x hx

theorem weightedPart_ok {α} [DecidableEq α] (q : Nat) (hq : 0 < q) (l : List (α × Int))
    (f : Nat × List (AliasRec α)) (h : FileOf l f) :
    PartWith (weightedPart q f) (C21_outcomes q f.1 f.2) ∧ ((∃ e, e ∈ l) → 0 < (weightedPart q f).weight) ∧
      ∀ x ∈ C21_outcomes q f.1 f.2, ∃ e ∈ l, e.1 = x ∧ 0 < e.2 := by
  refine ⟨?_, fun ⟨e, he⟩ => h.pos (List.ne_nil_of_mem he), h.outcomes q⟩
  intro hw
  refine weighted_part f.2 q f.1 f.1 hq hw (fun _ hn => ?_) hw
  have h1 := h.len
  rw [hn] at h1
  have : l = [] := List.eq_nil_of_length_eq_zero h1.symm
  have h2 := h.one
  rw [this] at h2
  have hw' : 0 < f.1 := hw
  simp at h2
  omega

theorem uniformPart_ok {α} [DecidableEq α] (l : List (α × Int)) (f : Nat × List (AliasRec α)) (h : FileOf l f) :
    PartWith (uniformPart true f) (uniformElements f.1 f.2) ∧ ((∃ e, e ∈ l) → 0 < (uniformPart true f).weight) ∧
      ∀ x ∈ uniformElements f.1 f.2, ∃ e ∈ l, e.1 = x ∧ True := by
  refine ⟨by simpa only [uniformPart, if_true] using uniform_part_with (uniformElements f.1 f.2), ?_, ?_⟩
  · rintro ⟨e, he⟩
    exact List.length_pos_of_mem ((h.elements e.1).2 ⟨e, he, rfl⟩)
  · intro x hx
    obtain ⟨e, he, hx⟩ := (h.elements x).1 hx
    exact ⟨e, he, hx, trivial⟩

theorem mem_nodes {recs : List Rec} {t : Nat} {e : Int × Int} (h : e ∈ C21_nodes recs t) :
    ∃ r ∈ recs, r.dst = -1 ∧ r.typ = (t : Int) ∧ r.src = e.1 ∧ r.weight = e.2 := by
  simp only [C21_nodes, List.mem_map, List.mem_filter, decide_eq_true_eq] at h
  obtain ⟨r, ⟨h1, h2, h3⟩, rfl⟩ := h
  exact ⟨r, h1, h2, h3, rfl, rfl⟩

theorem mem_edges {recs : List Rec} {t : Nat} {e : (Int × Int) × Int} (h : e ∈ C21_edges recs t) :
    ∃ r ∈ recs, r.dst ≠ -1 ∧ r.typ = (t : Int) ∧ (r.src, r.dst) = e.1 ∧ r.weight = e.2 := by
  simp only [C21_edges, List.mem_map, List.mem_filter, decide_eq_true_eq] at h
  obtain ⟨r, ⟨h1, h2, h3⟩, rfl⟩ := h
  exact ⟨r, h1, h2, h3, rfl, rfl⟩

/-- Weighted node sampler: all positions are filled with nodes of the requested types with positive weights. -/
theorem C22_weighted_nodes (parts : List (List Rec)) (hok : C22_nodesOk C parts) (q : Nat) (hq : 0 < q)
    (typeCount : Nat) (types : List Int) (R : Draws) (s : Nat) (outTypes out : List Int)
    (hl : out.length = outTypes.length) (hne : C22_available C21_nodes parts typeCount types ≠ []) :
    ∃ smp tys os, createSampler typeCount
        (fun t => (parts.mapM fun p => nodeAliasOf C p t).map fun fs => fs.map (weightedPart q)) types = some smp ∧
      samplerSample true R smp s outTypes out = some (tys, os) ∧
      tys.length = outTypes.length ∧ os.length = outTypes.length ∧
      ∀ y ∈ tys.zip os, y.1 ∈ types ∧ ∃ recs ∈ parts, ∃ e ∈ C21_nodes recs y.1.toNat, e.1 = y.2 ∧ 0 < e.2 :=
  C22_with_generic parts C21_nodes (nodeAliasOf C) (weightedPart q) (fun f => C21_outcomes q f.1 f.2)
    (fun e => 0 < e.2) (weightedPart_ok q hq) typeCount types (nodeAliasOf_file hok types typeCount) R s outTypes out hl hne

/-- Weighted edge sampler. -/
theorem C22_weighted_edges (parts : List (List Rec)) (hok : C22_edgesOk C parts) (q : Nat) (hq : 0 < q)
    (typeCount : Nat) (types : List Int) (R : Draws) (s : Nat) (outTypes : List Int) (out : List (Int × Int))
    (hl : out.length = outTypes.length) (hne : C22_available C21_edges parts typeCount types ≠ []) :
    ∃ smp tys os, createSampler typeCount
        (fun t => (parts.mapM fun p => edgeAliasOf C p t).map fun fs => fs.map (weightedPart q)) types = some smp ∧
      samplerSample true R smp s outTypes out = some (tys, os) ∧
      tys.length = outTypes.length ∧ os.length = outTypes.length ∧
      ∀ y ∈ tys.zip os, y.1 ∈ types ∧ ∃ recs ∈ parts, ∃ e ∈ C21_edges recs y.1.toNat, e.1 = y.2 ∧ 0 < e.2 :=
  C22_with_generic parts C21_edges (edgeAliasOf C) (weightedPart q) (fun f => C21_outcomes q f.1 f.2)
    (fun e => 0 < e.2) (weightedPart_ok q hq) typeCount types (edgeAliasOf_file hok types typeCount) R s outTypes out hl hne

/-- Uniform node sampler with replacement. -/
theorem C22_uniform_nodes (parts : List (List Rec)) (hok : C22_nodesOk C parts)
    (typeCount : Nat) (types : List Int) (R : Draws) (s : Nat) (outTypes out : List Int)
    (hl : out.length = outTypes.length) (hne : C22_available C21_nodes parts typeCount types ≠ []) :
    ∃ smp tys os, createSampler typeCount
        (fun t => (parts.mapM fun p => nodeAliasOf C p t).map fun fs => fs.map (uniformPart true)) types = some smp ∧
      samplerSample true R smp s outTypes out = some (tys, os) ∧
      tys.length = outTypes.length ∧ os.length = outTypes.length ∧
      ∀ y ∈ tys.zip os, y.1 ∈ types ∧ ∃ recs ∈ parts, ∃ e ∈ C21_nodes recs y.1.toNat, e.1 = y.2 := by
  simpa only [and_true] using C22_with_generic parts C21_nodes (nodeAliasOf C) (uniformPart true)
    (fun f => uniformElements f.1 f.2) (fun _ => True) uniformPart_ok typeCount types
    (nodeAliasOf_file hok types typeCount) R s outTypes out hl hne

/-- Uniform edge sampler with replacement. -/
theorem C22_uniform_edges (parts : List (List Rec)) (hok : C22_edgesOk C parts)
    (typeCount : Nat) (types : List Int) (R : Draws) (s : Nat) (outTypes : List Int) (out : List (Int × Int))
    (hl : out.length = outTypes.length) (hne : C22_available C21_edges parts typeCount types ≠ []) :
    ∃ smp tys os, createSampler typeCount
        (fun t => (parts.mapM fun p => edgeAliasOf C p t).map fun fs => fs.map (uniformPart true)) types = some smp ∧
      samplerSample true R smp s outTypes out = some (tys, os) ∧
      tys.length = outTypes.length ∧ os.length = outTypes.length ∧
      ∀ y ∈ tys.zip os, y.1 ∈ types ∧ ∃ recs ∈ parts, ∃ e ∈ C21_edges recs y.1.toNat, e.1 = y.2 := by
  simpa only [and_true] using C22_with_generic parts C21_edges (edgeAliasOf C) (uniformPart true)
    (fun f => uniformElements f.1 f.2) (fun _ => True) uniformPart_ok typeCount types
    (edgeAliasOf_file hok types typeCount) R s outTypes out hl hne

/-! Without replacement -/

theorem perm_flatMap_congr {α β} (l : List α) (f g : α → List β) (h : ∀ a ∈ l, (f a).Perm (g a)) :
    (l.flatMap f).Perm (l.flatMap g) := by
  induction l with
  | nil => simp
  | cons a l ih =>
    rw [List.flatMap_cons, List.flatMap_cons]
    exact (h a (by simp)).append (ih fun a ha => h a (by simp [ha]))

theorem picks_nodup {α} {xs o : List α} (hx : xs.Nodup) (h : Picks xs o) : o.Nodup ∧ ∀ x ∈ o, x ∈ xs := by
  obtain ⟨ps, h1, h2⟩ := h
  have hlt := Picks.lt h2
  constructor
  · have : (o.map some).Nodup := by
      rw [← h2]
      simp only [List.Nodup, List.pairwise_map]
      refine h1.imp_of_mem ?_
      intro a b ha hb hab he
      rw [List.getElem?_eq_getElem (hlt a ha), List.getElem?_eq_getElem (hlt b hb), Option.some.injEq] at he
      exact hab ((List.getElem_inj hx).1 he)
    simpa only [List.Nodup, List.pairwise_map, ne_eq, Option.some.injEq] using this
  · intro x hx
    have : some x ∈ ps.map fun p => xs[p]? := by rw [h2]; exact List.mem_map_of_mem hx
    obtain ⟨p, -, hp⟩ := List.mem_map.1 this
    exact List.mem_of_getElem? hp

theorem C22_without_generic {α} [DecidableEq α] (parts : List (List Rec)) (els : List Rec → Nat → List (α × Int))
    (file : List Rec → Int → Option (Nat × List (AliasRec α)))
    (typeCount : Nat) (types : List Int)
    (h : ∀ p ∈ parts, ∀ t ∈ knownTypes typeCount types, ∃ f, file p t = some f ∧ FileOf (els p t.toNat) f)
    (hnd : (C22_available els parts typeCount types).Nodup)
    (R : Draws) (s : Nat) (outTypes : List Int) (out : List α) (hl : out.length = outTypes.length) :
    ∃ smp, createSampler typeCount (fun t => (parts.mapM fun p => file p t).map fun fs => fs.map (uniformPart false))
        types = some smp ∧
      (∀ r, samplerSample false R smp s outTypes out = some r → ∃ tys os, tys.length = os.length ∧
        os.length = min out.length (C22_available els parts typeCount types).length ∧
        r = (tys ++ outTypes.drop tys.length, os ++ out.drop os.length) ∧
        (tys.zip os).Nodup ∧ ∀ y ∈ tys.zip os, y ∈ C22_available els parts typeCount types) ∧
      ((C22_available els parts typeCount types).length ≤ out.length →
        ∃ r, samplerSample false R smp s outTypes out = some r) := by
  obtain ⟨ts, h1, h2, h3⟩ := createSampler_spec typeCount types parts file (fun p t => els p t.toNat)
    (uniformPart false) (fun f => uniformElements f.1 f.2) h
  have hperm : (SamplerSpec.population (ts.map fun t => (t.1, t.2.map fun p =>
      (uniformPart false p.2, uniformElements p.2.1 p.2.2)))).Perm (C22_available els parts typeCount types) := by
    simp only [C22_available, ← h2, SamplerSpec.population, List.flatMap_map]
    apply perm_flatMap_congr
    intro t ht
    obtain ⟨h4, h5⟩ := h3 t ht
    rw [← h4, List.map_flatMap, List.flatMap_map]
    apply perm_flatMap_congr
    intro p hp
    have hf := h5 p hp
    have hn : ((els p.1 t.1.toNat).map (·.1)).Nodup := by
      have ht' : t.1 ∈ knownTypes typeCount types := by rw [← h2]; exact List.mem_map_of_mem ht
      have hp' : p.1 ∈ parts := by rw [← h4]; exact List.mem_map_of_mem hp
      have hs : ((els p.1 t.1.toNat).map fun e => (t.1, e.1)).Sublist (C22_available els parts typeCount types) := by
        simp only [C22_available]
        have a1 := sublist_flatMap_of_mem (f := fun recs => (els recs t.1.toNat).map fun e => (t.1, e.1)) hp'
        have a2 := sublist_flatMap_of_mem (f := fun t => parts.flatMap fun recs =>
          (els recs t.toNat).map fun e => (t, e.1)) ht'
        exact a1.trans a2
      have := hnd.sublist hs
      simp only [List.Nodup, List.pairwise_map] at this ⊢
      exact this.imp fun h e => h (by rw [e])
    have hpe : (uniformElements p.2.1 p.2.2).Perm ((els p.1 t.1.toNat).map (·.1)) := by
      apply (List.perm_ext_iff_of_nodup (nodup_distinct _) hn).2
      intro a
      have := hf.elements a
      simp only [uniformElements] at this
      rw [this]
      simp
    have := hpe.map fun x => (t.1, x)
    rwa [List.map_map] at this
  obtain ⟨g1, g2⟩ := sampleTypes_without R (ts.map fun t => (t.1, t.2.map fun p =>
      (uniformPart false p.2, uniformElements p.2.1 p.2.2))) outTypes.length s out (by
      intro t ht p hp
      obtain ⟨t, ht, rfl⟩ := List.mem_map.1 ht
      obtain ⟨p, hp, rfl⟩ := List.mem_map.1 hp
      simpa only [uniformPart, Bool.false_eq_true, if_false] using uniform_part_without (uniformElements p.2.1 p.2.2)) (by omega)
  refine ⟨_, h1, ?_, ?_⟩
  · intro r hr
    obtain ⟨⟨tys, os, rest, s'⟩, hr', rfl⟩ := Option.map_eq_some_iff.1 hr
    obtain ⟨e1, e2, e3, e4⟩ := g1 _ hr'
    simp only at e1 e2 e3 e4
    rw [hperm.length_eq] at e1
    obtain ⟨e5, e6⟩ := picks_nodup (hperm.nodup_iff.2 hnd) e4
    refine ⟨tys, os, e2.symm, by omega, ?_, e5, fun y hy => hperm.mem_iff.1 (e6 y hy)⟩
    simp only [e3, e2]
  · intro hle
    obtain ⟨r, hr⟩ := g2 (by rw [hperm.length_eq]; omega)
    exact ⟨_, by simp only [samplerSample]; rw [hr]; rfl⟩

/-- Uniform node sampler without replacement, all nodes being different: unless the counts drawn for
the types or partitions make it write past the end of the output (`none`), it returns
the smaller of the request and what is available, each node once, and leaves the rest of the output unchanged.
It never fails if everything is requested.  Missing: other requests, see `C22_overflow_refuted`. -/
theorem C22_without_nodes_partial (parts : List (List Rec)) (hok : C22_nodesOk C parts) (typeCount : Nat)
    (types : List Int) (hnd : (C22_available C21_nodes parts typeCount types).Nodup)
    (R : Draws) (s : Nat) (outTypes out : List Int) (hl : out.length = outTypes.length) :
    ∃ smp, createSampler typeCount
        (fun t => (parts.mapM fun p => nodeAliasOf C p t).map fun fs => fs.map (uniformPart false)) types = some smp ∧
      (∀ r, samplerSample false R smp s outTypes out = some r → ∃ tys os, tys.length = os.length ∧
        os.length = min out.length (C22_available C21_nodes parts typeCount types).length ∧
        r = (tys ++ outTypes.drop tys.length, os ++ out.drop os.length) ∧
        (tys.zip os).Nodup ∧ ∀ y ∈ tys.zip os, y ∈ C22_available C21_nodes parts typeCount types) ∧
      ((C22_available C21_nodes parts typeCount types).length ≤ out.length →
        ∃ r, samplerSample false R smp s outTypes out = some r) :=
  C22_without_generic parts C21_nodes (nodeAliasOf C) typeCount types (nodeAliasOf_file hok types typeCount) hnd R s
    outTypes out hl

/-- The same for edges. -/
theorem C22_without_edges_partial (parts : List (List Rec)) (hok : C22_edgesOk C parts) (typeCount : Nat)
    (types : List Int) (hnd : (C22_available C21_edges parts typeCount types).Nodup)
    (R : Draws) (s : Nat) (outTypes : List Int) (out : List (Int × Int)) (hl : out.length = outTypes.length) :
    ∃ smp, createSampler typeCount
        (fun t => (parts.mapM fun p => edgeAliasOf C p t).map fun fs => fs.map (uniformPart false)) types = some smp ∧
      (∀ r, samplerSample false R smp s outTypes out = some r → ∃ tys os, tys.length = os.length ∧
        os.length = min out.length (C22_available C21_edges parts typeCount types).length ∧
        r = (tys ++ outTypes.drop tys.length, os ++ out.drop os.length) ∧
        (tys.zip os).Nodup ∧ ∀ y ∈ tys.zip os, y ∈ C22_available C21_edges parts typeCount types) ∧
      ((C22_available C21_edges parts typeCount types).length ≤ out.length →
        ∃ r, samplerSample false R smp s outTypes out = some r) :=
  C22_without_generic parts C21_edges (edgeAliasOf C) typeCount types (edgeAliasOf_file hok types typeCount) hnd R s
    outTypes out hl

/-! Examples -/

/-- Two partitions: nodes 1, 3, 4 (type 0), 2 (type 1) and one edge; node 5 (type 1). -/
def C22_example : List (List Rec) :=
  [[⟨1, -1, 0, 1, none, none, []⟩, ⟨1, 2, 0, 5, none, none, []⟩, ⟨2, -1, 1, 7, none, none, []⟩,
    ⟨3, -1, 0, 3, none, none, []⟩, ⟨4, -1, 0, 1, none, none, []⟩],
   [⟨5, -1, 1, 2, none, none, []⟩, ⟨5, 1, 1, 2, none, none, []⟩]]

theorem C22_nodes_pos (parts : List (List Rec)) (h : ∀ recs ∈ parts, ∀ r ∈ recs, r.dst = -1 → 0 < r.weight) :
    ∀ recs ∈ parts, ∀ t, C21_nodes recs t ≠ [] → 0 < ((C21_nodes recs t).map (·.2)).sum := by
  intro recs hr t hne
  have : ∀ l : List (Int × Int), (∀ e ∈ l, 0 < e.2) → l ≠ [] → 0 < (l.map (·.2)).sum := by
    intro l
    induction l with
    | nil => intro _ h; exact absurd rfl h
    | cons a l ih =>
      intro h _
      have h1 := h a (by simp)
      by_cases hl : l = []
      · simp [hl, h1]
      · have := ih (fun e he => h e (by simp [he])) hl
        rw [List.map_cons, List.sum_cons]; omega
  apply this _ _ hne
  intro e he
  obtain ⟨r, h1, h2, -, -, h5⟩ := mem_nodes he
  rw [← h5]
  exact h recs hr r h1 h2

theorem C22_example_ok : C22_nodesOk intCodec C22_example :=
  ⟨by decide, by simp only [intCodec]; decide, C22_nodes_pos _ (by decide)⟩

/-- Non-vacuity: four nodes of types 1 and 0, with weights; the type 9 does not exist. -/
example (R : Draws) : ∃ smp tys os, createSampler 2
      (fun t => (C22_example.mapM fun p => nodeAliasOf intCodec p t).map fun fs => fs.map (weightedPart 3)) [9, 1, 0]
        = some smp ∧ samplerSample true R smp 0 [7, 7, 7, 7] [7, 7, 7, 7] = some (tys, os) ∧ os.length = 4 ∧
      ∀ y ∈ tys.zip os, y ∈ [(0, 1), (1, 2), (0, 3), (0, 4), (1, 5)] := by
  obtain ⟨smp, tys, os, h1, h2, -, h4, h5⟩ := C22_weighted_nodes C22_example C22_example_ok 3 (by decide) 2 [9, 1, 0]
    R 0 [7, 7, 7, 7] [7, 7, 7, 7] rfl (by decide)
  refine ⟨smp, tys, os, h1, h2, h4, fun y hy => ?_⟩
  obtain ⟨h6, recs, h7, e, h8, h9, -⟩ := h5 y hy
  have h10 : y ∈ C22_available C21_nodes C22_example 10 [9, 1, 0] := by
    simp only [C22_available, List.mem_flatMap, List.mem_map]
    refine ⟨y.1, mem_knownTypes.2 ⟨h6, ?_⟩, recs, h7, e, h8, by rw [h9]⟩
    have : ∀ t ∈ ([9, 1, 0] : List Int), 0 ≤ t ∧ t < ((10 : Nat) : Int) := by decide
    exact this _ h6
  have : ∀ y ∈ C22_available C21_nodes C22_example 10 [9, 1, 0], y ∈ [(0, 1), (1, 2), (0, 3), (0, 4), (1, 5)] := by
    decide +kernel
  exact this y h10

/-- Non-vacuity without replacement: all five nodes are returned, and one position is left. -/
example (R : Draws) : ∃ smp tys os, createSampler 2
      (fun t => (C22_example.mapM fun p => nodeAliasOf intCodec p t).map fun fs => fs.map (uniformPart false)) [1, 0]
        = some smp ∧ samplerSample false R smp 0 [7, 7, 7, 7, 7, 7] [8, 8, 8, 8, 8, 8] = some (tys ++ [7], os ++ [8]) ∧
      os.length = 5 ∧ (tys.zip os).Nodup := by
  obtain ⟨smp, h1, h2, h3⟩ := C22_without_nodes_partial C22_example C22_example_ok 2 [1, 0] (by decide +kernel)
    R 0 [7, 7, 7, 7, 7, 7] [8, 8, 8, 8, 8, 8] rfl
  obtain ⟨r, hr⟩ := h3 (by decide +kernel)
  obtain ⟨tys, os, h4, h5, h6, h7, -⟩ := h2 r hr
  have h8 : os.length = 5 := by rw [h5]; decide +kernel
  refine ⟨smp, tys, os, h1, ?_, h8, h7⟩
  rw [hr, h6, h4, h8]; rfl

/-- A request for two of the three nodes of type 0 and the node of type 1 in one partition: if the number
of nodes of type 0 is drawn to be 0, the sampler takes all three of them although only two fit in the
output. -/
theorem C22_overflow_refuted : ∃ smp, createSampler 2
      (fun t => ((C22_example.take 1).mapM fun p => nodeAliasOf intCodec p t).map fun fs => fs.map (uniformPart false))
        [0, 1] = some smp ∧ smp.map (fun t => (t.1, t.2.map (·.weight))) = [(0, [3]), (1, [1])] ∧
      takeCount false (fun _ => 0) 2 3 1 0 = 3 ∧
      samplerSample false (fun _ => 0) smp 0 [7, 7] [7, 7] = none := by
  have hok : C22_nodesOk intCodec (C22_example.take 1) :=
    ⟨by decide, by simp only [intCodec]; decide, C22_nodes_pos _ (by decide)⟩
  obtain ⟨smp, h1, -, -⟩ := C22_without_nodes_partial (C22_example.take 1) hok 2 [0, 1] (by decide +kernel)
    (fun _ => 0) 0 [7, 7] [7, 7] rfl
  refine ⟨smp, h1, ?_, by decide, ?_⟩
  · have : (createSampler 2 (fun t => ((C22_example.take 1).mapM fun p => nodeAliasOf intCodec p t).map fun fs =>
        fs.map (uniformPart false)) [0, 1]).map (fun smp => smp.map (fun t => (t.1, t.2.map (·.weight)))) =
        some [(0, [3]), (1, [1])] := by decide +kernel
    rw [h1] at this
    simpa using this
  · have : (createSampler 2 (fun t => ((C22_example.take 1).mapM fun p => nodeAliasOf intCodec p t).map fun fs =>
        fs.map (uniformPart false)) [0, 1]).map (fun smp => samplerSample false (fun _ => 0) smp 0 [7, 7] [7, 7]) =
        some none := by decide +kernel
    rw [h1] at this
    simpa using this

end DeepGNN
