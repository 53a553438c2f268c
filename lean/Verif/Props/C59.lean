import Verif.Proofs.Json
import Verif.Props.C05
import Verif.Props.C08
import Verif.Props.C58

/-
C59 JSON lines: what is described is what is stored and served.
-/

namespace DeepGNN

open Spec Json

/-- For all lines whose features can be stored: the line becomes a record of the node with the values given for every feature, followed by one
record per edge, ordered by type, creation, removal and destination, with its own times or else those of the node. -/
theorem C59_decodes (n : Node) (hf : FeaturesValid n.features) (he : ∀ e ∈ n.edges, FeaturesValid e.features) :
    ∃ (fs : List (Option Bytes)) (es : List Rec) (sorted : List Json.Edge), decode n = some (⟨n.id, -1, n.typ, n.weight, some (n.created.getD 0), some (n.removed.getD (-1)), fs⟩ :: es) ∧
      StoresFeatures n.features fs ∧ sorted.Perm n.edges ∧ sorted.Pairwise EdgeBefore ∧ es.length = sorted.length ∧
      ∀ x ∈ sorted.zip es, x.2.src = x.1.src ∧ x.2.dst = x.1.dst ∧ x.2.typ = x.1.typ ∧ x.2.weight = x.1.weight ∧
        x.2.created = some (x.1.created.getD (n.created.getD 0)) ∧ x.2.removed = some (x.1.removed.getD (n.removed.getD (-1))) ∧
        StoresFeatures x.1.features x.2.features := by
  obtain ⟨fs, es, h1, h2, h3⟩ := decode_records n hf he
  have h4 : ∀ {l : List Json.Edge} {es : List Rec}, l.mapM (edgeRec (n.created.getD 0) (n.removed.getD (-1))) = some es →
      (∀ e ∈ l, FeaturesValid e.features) → es.length = l.length ∧
      ∀ x ∈ l.zip es, x.2.src = x.1.src ∧ x.2.dst = x.1.dst ∧ x.2.typ = x.1.typ ∧ x.2.weight = x.1.weight ∧
        x.2.created = some (x.1.created.getD (n.created.getD 0)) ∧ x.2.removed = some (x.1.removed.getD (n.removed.getD (-1))) ∧
        StoresFeatures x.1.features x.2.features := by
    intro l
    induction l with
    | nil =>
      intro es h _
      simp only [List.mapM_nil, Option.pure_def, Option.some.injEq] at h
      subst h
      simp
    | cons e l ih =>
      intro es h hv
      obtain ⟨r, rs, h5, h6, rfl⟩ := mapM_cons_inv h
      obtain ⟨i1, i2⟩ := ih h6 (fun x hx => hv x (by simp [hx]))
      refine ⟨by simp [i1], ?_⟩
      intro x hx
      rw [List.zip_cons_cons] at hx
      rcases List.mem_cons.1 hx with rfl | hx
      · obtain ⟨k1, k2, k3, k4, k5, k6, k7⟩ := edgeRec_inv h5
        obtain ⟨out, o1, o2⟩ := features_stored e.features (hv e (by simp))
        rw [k7, Option.some.injEq] at o1
        subst o1
        exact ⟨k1, k2, k3, k4, k5, k6, o2⟩
      · exact i2 x hx
  obtain ⟨h5, h6⟩ := h4 h3 (fun e hm => he e ((sortEdges_perm _).mem_iff.1 hm))
  exact ⟨fs, es, sortEdges n.edges, h1, h2, sortEdges_perm _, (sortEdges_sorted _).imp keyLe_before, h5, h6⟩

theorem decodeParts_each {parts : List (List Node)} (hv : ∀ p ∈ parts, ∀ n ∈ p, JsonValid n) : ∃ recs, decodeParts parts = some recs := by
  refine mapM_each fun p hp => mapM_each fun n hn => ?_
  obtain ⟨fs, es, h, -⟩ := decode_records n (hv p hp n hn).features (fun e he => ((hv p hp n hn).edges e he).2.2.2.2.2)
  exact ⟨_, h⟩

/-- All valid lines, in any distribution over partitions and with their edges in any order, are decoded and converted, and the graph loads. -/
theorem C59_converts (C : WeightCodec) (wm : Option Nat) (m : Meta) (parts : List (List Node)) (hv : ∀ p ∈ parts, ∀ n ∈ p, JsonValid n)
    (hw : ∀ e ∈ jsonTimedEdges parts, C.Valid e.weight) (hm : 0 ≤ m.watermark → wm ≠ none) :
    ∃ recs, decodeParts parts = some recs ∧ ((∀ calls ∈ recs, inputSize calls + 24 < 2 ^ 64) →
      (∀ r ∈ allRecords recs, r.features.length ≤ if r.dst = -1 then m.nodeFeatureCount else m.edgeFeatureCount) →
      ∃ fs g, recs.mapM (convertPartition C wm) = some fs ∧ loadGraph C m (fs.map fun f => [f]) = some g ∧ Built C wm m recs g) := by
  obtain ⟨recs, h1⟩ := decodeParts_each hv
  refine ⟨recs, h1, fun hsize hft => ?_⟩
  have hdst : ∀ p ∈ parts, ∀ n ∈ p, ∀ e ∈ n.edges, e.dst ≠ -1 := by
    intro p hp n hn e he
    have := ((hv p hp n hn).edges e he).2.1
    omega
  refine C58_accepts C wm recs ?_ hsize ?_ m hm hft
  · intro calls hc
    obtain ⟨p, hp, h2⟩ := mem_mapM h1 calls hc
    refine validPart_lines fun rs hrs => ?_
    obtain ⟨n, hn, h3⟩ := mem_mapM h2 rs hrs
    exact line_ok (hv p hp n hn) h3
  · intro r hr
    obtain ⟨e, he, -, -, hew⟩ := record_timed hr
    rw [← hew]
    exact hw e ((timed_parts h1 hdst).mem_iff.1 he)

/-- The requested types have no gap (C03). -/
def JsonNoGap (parts : List (List Node)) (n : Int) (types : List Int) : Prop :=
  ∀ x ∈ jsonTimedEdges parts, ∀ y ∈ jsonTimedEdges parts, x.src = n → y.src = n → y.typ ∈ types → (∃ t ∈ types, x.typ < t ∧ t < y.typ) → x.typ ∈ types

/-- Weights are not negative and add up to at most `2^24` for every node and type. -/
def JsonSmallWeights (parts : List (List Node)) : Prop :=
  (∀ e ∈ jsonTimedEdges parts, 0 ≤ e.weight) ∧ ∀ n t, (((jsonTimedEdges parts).filter fun e => e.src = n ∧ e.typ = t).map (·.weight)).sum ≤ 2 ^ 24

theorem noGap_records {parts : List (List Node)} {recs : List (List (List Rec))} (h : decodeParts parts = some recs)
    (hd : ∀ p ∈ parts, ∀ n ∈ p, ∀ e ∈ n.edges, e.dst ≠ -1) {n : Int} {types : List Int} (hg : JsonNoGap parts n types) :
    ∀ x ∈ edgeRecords recs, ∀ y ∈ edgeRecords recs, x.src = n → y.src = n → y.typ ∈ types → (∃ t ∈ types, x.typ < t ∧ t < y.typ) →
      x.typ ∈ types := by
  intro x hx y hy h1 h2 h3 h4
  obtain ⟨a, ha, a1, a2, -⟩ := record_timed hx
  obtain ⟨b, hb, b1, b2, -⟩ := record_timed hy
  rw [← a2]
  exact hg a ((timed_parts h hd).mem_iff.1 ha) b ((timed_parts h hd).mem_iff.1 hb) (a1.trans h1) (b1.trans h2) (by rw [b2]; exact h3)
    (by rw [a2, b2]; exact h4)

theorem exact_records {parts : List (List Node)} {recs : List (List (List Rec))} (h : decodeParts parts = some recs)
    (hd : ∀ p ∈ parts, ∀ n ∈ p, ∀ e ∈ n.edges, e.dst ≠ -1) (hw : JsonSmallWeights parts) : ExactWeights recs := by
  refine C02_exact_of_small recs ?_ ?_
  · intro r hr
    obtain ⟨e, he, -, -, hew⟩ := record_timed hr
    rw [← hew]
    exact hw.1 e ((timed_parts h hd).mem_iff.1 he)
  · intro n t
    have h1 := neighbors_timed recs n [t]
    rw [neighbors] at h1
    have h2 := congrArg (List.map Nbr.weight) h1
    simp only [List.map_map, Function.comp_def, List.mem_singleton] at h2
    rw [h2]
    have h3 : ∀ {a b : List Int}, a.Perm b → a.sum = b.sum := by
      intro a b h
      induction h with
      | nil => rfl
      | cons x _ ih => simp [ih]
      | swap x y l => simp only [List.sum_cons]; omega
      | trans _ _ h1 h2 => exact h1.trans h2
    rw [h3 (((timed_parts h hd).filter _).map _)]
    exact hw.2 n t

/-- Neighbours of any node over any request without a gap are exactly the edges in the lines. -/
theorem C59_neighbors {C : WeightCodec} {wm : Option Nat} {m : Meta} {parts : List (List Node)} {recs : List (List (List Rec))} {g : Graph}
    (hd : ∀ p ∈ parts, ∀ n ∈ p, ∀ e ∈ n.edges, e.dst ≠ -1) (h : decodeParts parts = some recs) (hb : Built C wm m recs g) (n : Int)
    (types : List Int) (ht : types.Pairwise (· < ·)) (hgap : JsonNoGap parts n types) :
    ∃ nbrs, g.fullNeighbor [n] none types = some (nbrs, [(jsonNeighbors parts n types).length]) ∧
      (nbrs.map fun x => (x.dst, x.typ)).Perm ((jsonNeighbors parts n types).map fun x => (x.dst, x.typ)) ∧
      (JsonSmallWeights parts → nbrs.Perm (jsonNeighbors parts n types)) := by
  obtain ⟨nbrs, h1, h2, h3⟩ := C03_complete_partial hb n types ht (noGap_records h hd hgap)
  have hp : (neighbors recs n types).Perm (jsonNeighbors parts n types) := by
    rw [neighbors_timed, jsonNeighbors]
    exact ((timed_parts h hd).filter _).map _
  refine ⟨nbrs, by rw [h1, hp.length_eq], by rw [h2]; exact hp.map _, ?_⟩
  intro hw
  rw [h3 (exact_records h hd hw)]
  exact hp

/-- Neighbours at any time are exactly the edges of the lines that live at this time, if no removal time is 0 (C05). -/
theorem C59_snapshot_partial {C : WeightCodec} {wm : Option Nat} {m : Meta} {parts : List (List Node)} {recs : List (List (List Rec))} {g : Graph}
    (hd : ∀ p ∈ parts, ∀ n ∈ p, ∀ e ∈ n.edges, e.dst ≠ -1) (h : decodeParts parts = some recs) (hb : Built C wm m recs g)
    (hwm : 0 ≤ m.watermark) (n t : Int) (types : List Int) (ht : types.Pairwise (· < ·)) (hgap : JsonNoGap parts n types)
    (hc : ∀ p ∈ parts, ∀ n ∈ p, 0 ≤ n.created.getD 0 ∧ ∀ e ∈ n.edges, ∀ c, e.created = some c → 0 ≤ c)
    (hr : ∀ p ∈ parts, ∀ n ∈ p, n.removed ≠ some 0 ∧ ∀ e ∈ n.edges, e.removed ≠ some 0) :
    ∃ nbrs, g.fullNeighbor [n] (some [t]) types = some (nbrs, [(jsonNeighborsAt parts n t types).length]) ∧
      (nbrs.map fun x => (x.dst, x.typ)).Perm ((jsonNeighborsAt parts n t types).map fun x => (x.dst, x.typ)) ∧
      (JsonSmallWeights parts → nbrs.Perm (jsonNeighborsAt parts n t types)) := by
  have hrec : ∀ r ∈ allRecords recs, (∀ c, r.created = some c → 0 ≤ c) ∧ r.removed ≠ some 0 := by
    intro r hrm
    obtain ⟨call, h1, h2⟩ := List.mem_flatten.1 hrm
    obtain ⟨part, h3, h4⟩ := List.mem_flatten.1 h1
    obtain ⟨p, hp, h5⟩ := mem_mapM h part h3
    obtain ⟨x, hx, h6⟩ := mem_mapM h5 call h4
    obtain ⟨c1, c2⟩ := hc p hp x hx
    obtain ⟨r1, r2⟩ := hr p hp x hx
    have hr0 : x.removed.getD (-1) ≠ 0 := by
      cases hxr : x.removed with
      | none => simp
      | some v => rw [hxr] at r1; simpa using r1
    rw [decode] at h6
    obtain ⟨fs, -, h6⟩ := Option.bind_eq_some_iff.1 h6
    obtain ⟨es, h7, rfl⟩ := Option.map_eq_some_iff.1 h6
    rcases List.mem_cons.1 h2 with rfl | h2
    · exact ⟨by rintro c ⟨⟩; exact c1, by simpa using hr0⟩
    · obtain ⟨e, he, h8⟩ := mem_mapM h7 r h2
      obtain ⟨-, -, -, -, k5, k6, -⟩ := edgeRec_inv h8
      have he' := (sortEdges_perm _).mem_iff.1 he
      constructor
      · intro c hce
        rw [k5, Option.some.injEq] at hce
        cases hec : e.created with
        | none => rw [hec] at hce; simp only [Option.getD_none] at hce; omega
        | some v => rw [hec] at hce; simp only [Option.getD_some] at hce; subst hce; exact c2 e he' v hec
      · rw [k6]
        cases hec : e.removed with
        | none => simpa using hr0
        | some v => have := r2 e he'; rw [hec] at this; simpa using this
  obtain ⟨nbrs, h1, h2, h3⟩ := C05_snapshot_partial hb hwm n t types ht (noGap_records h hd hgap) (fun r hr => (hrec r hr).1)
    (fun r hr => (hrec r hr).2)
  have hp : (neighborsAt recs n t types).Perm (jsonNeighborsAt parts n t types) := by
    rw [neighborsAt, jsonNeighborsAt]
    exact ((timed_parts h hd).filter _).map _
  refine ⟨nbrs, by rw [h1, hp.length_eq], by rw [h2]; exact hp.map _, ?_⟩
  intro hw
  rw [h3 (exact_records h hd hw)]
  exact hp

theorem node_heads (n : Int) : ∀ {ns : List Node} {rs : List (List Rec)}, ns.mapM decode = some rs → (∀ x ∈ ns, ∀ e ∈ x.edges, e.dst ≠ -1) →
    (ns.filter fun x => x.id = n).mapM (fun x => (decode x).bind (·.head?)) = some (rs.flatten.filter fun r => r.dst = -1 ∧ r.src = n)
  | [], rs, h, _ => by
    simp only [List.mapM_nil, Option.pure_def, Option.some.injEq] at h
    subst h
    rfl
  | x :: ns, rs, h, hd => by
    obtain ⟨b, bs, h1, h2, rfl⟩ := mapM_cons_inv h
    have ih := node_heads n h2 (fun y hy => hd y (by simp [hy]))
    have h1' := h1
    rw [decode] at h1'
    obtain ⟨fs, -, h1'⟩ := Option.bind_eq_some_iff.1 h1'
    obtain ⟨es, h3, rfl⟩ := Option.map_eq_some_iff.1 h1'
    have hes : es.filter (fun r => r.dst = -1 ∧ r.src = n) = [] := by
      rw [List.filter_eq_nil_iff]
      intro r hr
      obtain ⟨e, he, h4⟩ := mem_mapM h3 r hr
      have h5 := (edgeRec_inv h4).2.1
      have h6 := hd x (by simp) e ((sortEdges_perm _).mem_iff.1 he)
      simp only [decide_eq_true_eq, not_and]
      intro h7
      omega
    rw [List.flatten_cons, List.filter_append, List.filter_cons, List.filter_cons]
    by_cases hx : x.id = n
    · simp only [hx, decide_true, if_true, and_self, hes, List.mapM_cons, ih, h1, Option.bind_some, List.head?_cons]
      rfl
    · simp only [hx, decide_false, Bool.false_eq_true, and_false, if_false, hes, List.nil_append, ih]

/-- Features of a node that is described by one line: for every request the value given (last) for each feature, cut or filled to the requested
size, zeros where nothing was given. -/
theorem C59_features {C : WeightCodec} {wm : Option Nat} {m : Meta} {parts : List (List Node)} {recs : List (List (List Rec))} {g : Graph}
    (hd : ∀ p ∈ parts, ∀ n ∈ p, ∀ e ∈ n.edges, e.dst ≠ -1) (h : decodeParts parts = some recs) (hb : Built C wm m recs g) (line : Node)
    (hone : (parts.flatten.filter fun x => x.id = line.id) = [line]) (hf : FeaturesValid line.features) :
    ∃ fs, StoresFeatures line.features fs ∧ ∀ (feats : List (Nat × Nat)) (out : Bytes), out.length = (feats.map (·.2)).sum →
      g.nodeFeature [line.id] none feats out = some (feats.flatMap fun f => fit f.2 ((fs.getD f.1 none).getD [])) := by
  obtain ⟨fs, h1, h2⟩ := features_stored line.features hf
  refine ⟨fs, h2, ?_⟩
  intro feats out hout
  have h3 := node_heads line.id (mapM_flatten h) (by
    intro n hn
    obtain ⟨p, h1, h2⟩ := List.mem_flatten.1 hn
    exact hd p h1 n h2)
  rw [hone] at h3
  obtain ⟨r, rs, h4, h5, h6⟩ := mapM_cons_inv h3
  simp only [List.mapM_nil, Option.pure_def, Option.some.injEq] at h5
  subst h5
  obtain ⟨l, h7, h8⟩ := Option.bind_eq_some_iff.1 h4
  rw [decode, h1, Option.bind_some] at h7
  obtain ⟨es, -, rfl⟩ := Option.map_eq_some_iff.1 h7
  simp only [List.head?_cons, Option.some.injEq] at h8
  subst h8
  rw [C08_node_features hb [line.id] feats out (by simpa using hout)]
  simp only [List.flatMap_cons, List.flatMap_nil, List.append_nil, Option.some.injEq]
  congr 1
  funext f
  have h9 := (C08_record recs line.id f.1).1 _ h6
  rw [h9, featureOf]
  simp only [List.getD_eq_getElem?_getD]
  cases fs[f.1]? <;> rfl

/-- A feature given as an empty list is not converted: the decoder looks at its first element (decoders.py:370). -/
theorem C59_empty_refuted : ¬ ∀ (n : Node), (∀ g ∈ n.features, g.1 = .dense ∧ ∀ x ∈ g.2, 0 ≤ x.1 ∧ ∃ vs, x.2 = .numbers vs) →
    n.edges = [] → ∃ rs, decode n = some rs := by
  intro h
  obtain ⟨rs, hrs⟩ := h ⟨1, 0, 1, none, none, [(.dense, [(0, .numbers [])])], []⟩ (by simp) rfl
  have : decode ⟨1, 0, 1, none, none, [(.dense, [(0, .numbers [])])], []⟩ = none := by decide
  rw [this] at hrs
  simp at hrs

/-! Cases that meet the hypotheses. -/

def exJson : List (List Node) :=
  [[⟨7, 1, 1, some 1, some 8, [(.dense, [(2, .numbers [[1], [2]])]), (.binary, [(0, .text [65])])],
      [⟨7, 9, 1, 2, none, none, []⟩, ⟨7, 3, 0, 5, some 2, some 5, [(.sparse, [(0, .sparse (.vec [4, 6]) [[1], [2]])])]⟩, ⟨7, 8, 0, 3, none, some 4, []⟩]⟩],
   [⟨3, 0, 2, none, none, [], [⟨3, 7, 2, 4, none, some (-1), []⟩]⟩]]

theorem exJson_features : FeaturesValid [(.dense, [(2, .numbers [[1], [2]])]), (.binary, [(0, .text [65])])] := by
  intro g hg x hx
  simp at hg
  rcases hg with rfl | rfl
  · simp at hx; subst hx; exact ⟨by decide, _, .numbers _ (by simp)⟩
  · simp at hx; subst hx; exact ⟨by decide, _, .text _⟩

theorem exJson_valid : ∀ p ∈ exJson, ∀ n ∈ p, JsonValid n := by
  intro p hp n hn
  simp [exJson] at hp
  rcases hp with rfl | rfl
  · simp at hn
    subst hn
    refine ⟨by simp, by simp, by simp [TimeFits], by simp [TimeFits], exJson_features, ?_, ?_⟩
    · intro e he
      simp at he
      rcases he with rfl | rfl | rfl
      · simp [TimeFits, FeaturesValid]
      · refine ⟨by simp, by simp, by simp, by simp [TimeFits], by simp [TimeFits], ?_⟩
        intro g hg x hx
        simp at hg
        subst hg
        simp at hx
        subst hx
        exact ⟨by decide, _, .sparse _ _ _ rfl⟩
      · simp [TimeFits, FeaturesValid]
    · intro e he
      simp at he
      rcases he with rfl | rfl | rfl <;> simp [nodeLife, jsonTimed, removalTime, removalLe]
  · simp at hn
    subst hn
    refine ⟨by simp, by simp, by simp [TimeFits], by simp [TimeFits], by simp [FeaturesValid], ?_, ?_⟩
    · intro e he
      simp at he
      subst he
      simp [TimeFits, FeaturesValid]
    · intro e he
      simp at he
      subst he
      simp [nodeLife, jsonTimed, removalTime, removalLe]

/-- Edges come in order of type, creation and destination, with the times of the node where they have none. -/
example : (decodeParts exJson).map (fun recs => recs.flatten.flatten.map fun r => [r.src, r.dst, r.typ, r.created.getD 99, r.removed.getD 99]) =
    some [[7, -1, 1, 1, 8], [7, 8, 0, 1, 4], [7, 3, 0, 2, 5], [7, 9, 1, 1, 8], [3, -1, 0, 0, -1], [3, 7, 2, 0, -1]] := by decide +kernel

example : ∃ recs g nbrs now, decodeParts exJson = some recs ∧ Built intCodec (some 9) ⟨3, 1, 9⟩ recs g ∧
    g.fullNeighbor [7] none [0, 1] = some (nbrs, [3]) ∧ nbrs.Perm [⟨9, 1, 2⟩, ⟨3, 0, 5⟩, ⟨8, 0, 3⟩] ∧
    g.fullNeighbor [7] (some [4]) [0, 1] = some (now, [2]) ∧ now.Perm [⟨9, 1, 2⟩, ⟨3, 0, 5⟩] := by
  obtain ⟨recs, h1, h2⟩ := C59_converts intCodec (some 9) ⟨3, 1, 9⟩ exJson exJson_valid (by
    intro e he
    simp [jsonTimedEdges, exJson, jsonTimed, nodeLife] at he
    rcases he with rfl | rfl | rfl | rfl <;> exact ⟨by decide, by decide⟩) (by simp)
  have hrecs : decodeParts exJson = some ((decodeParts exJson).getD []) := by decide +kernel
  obtain ⟨fs, g, -, -, hb⟩ := h2 (by
    intro calls hc
    have : ∀ calls ∈ (decodeParts exJson).getD [], inputSize calls + 24 < 2 ^ 64 := by decide +kernel
    rw [h1] at this
    exact this calls hc) (by
    intro r hr
    have : ∀ r ∈ allRecords ((decodeParts exJson).getD []), r.features.length ≤ if r.dst = -1 then 3 else 1 := by decide +kernel
    rw [h1] at this
    exact this r hr)
  have hd : ∀ p ∈ exJson, ∀ n ∈ p, ∀ e ∈ n.edges, e.dst ≠ -1 := by decide
  have hg : JsonNoGap exJson 7 [0, 1] := by
    intro x hx y _ _ _ hy ⟨t, ht, h3, h4⟩
    have : 0 ≤ x.typ := by
      simp [jsonTimedEdges, exJson, jsonTimed, nodeLife] at hx
      rcases hx with rfl | rfl | rfl | rfl <;> simp
    simp at hy ht
    omega
  have hw : JsonSmallWeights exJson := by
    constructor
    · intro e he
      simp [jsonTimedEdges, exJson, jsonTimed, nodeLife] at he
      rcases he with rfl | rfl | rfl | rfl <;> simp
    · intro n t
      simp only [jsonTimedEdges, exJson, jsonTimed, List.flatten_cons, List.flatten_nil, List.append_nil, List.flatMap_cons, List.flatMap_nil,
        List.map_cons, List.map_nil, List.cons_append, List.nil_append, List.filter_cons, List.filter_nil]
      repeat' split
      all_goals simp
  obtain ⟨nbrs, h3, -, h4⟩ := C59_neighbors hd h1 hb 7 [0, 1] (by simp) hg
  obtain ⟨now, h5, -, h6⟩ := C59_snapshot_partial hd h1 hb (by simp) 7 4 [0, 1] (by simp) hg (by decide) (by decide)
  exact ⟨recs, g, nbrs, now, h1, hb, h3, h4 hw, h5, h6 hw⟩

example : (exJson.flatten.filter fun x => x.id = 7).length = 1 := by decide

end DeepGNN
