import Verif.Proofs.Tsv
import Verif.Props.C03
import Verif.Props.C08
import Verif.Props.C58

/-
C60 TSV lines: what is described is what is stored and served.
-/

namespace DeepGNN

open Spec Tsv
open EdgeList (Str)

/-- For all lines without line breaks, quotes or delimiters inside values: a written line is decoded into the record of the node, with 0 for a type or weight
that was left empty, followed by one record per neighbour, ordered by type and destination. Missing: features of type `i`, `u` and edge
labels of the described format, texts with a colon, and edges without a type, see the refutations below. -/
theorem C60_decodes_partial (P : Parse) (S : TsvShow) (n : TsvNode) (line : Str) (hn : n.Ok P S) (hl : TsvLine S n line) :
    ∃ sorted : List TsvEdge, sorted.Perm n.edges ∧ (sorted.Pairwise fun a b => a.typ < b.typ ∨ (a.typ = b.typ ∧ a.dst ≤ b.dst)) ∧
    decode P line = some (⟨n.id, -1, n.typ.getD 0, n.weight.getD 0, none, none, n.features.map (·.stored P)⟩ :: sorted.map (·.record P n.id)) :=
  decode_line hn hl

/-- Lines of a partition and what they describe. -/
def TsvParts (P : Parse) (S : TsvShow) (parts : List (List (TsvNode × Str))) : Prop :=
  ∀ p ∈ parts, ∀ x ∈ p, x.1.Ok P S ∧ TsvLine S x.1 x.2 ∧ x.1.Fits

/-- The texts. -/
def tsvLines (parts : List (List (TsvNode × Str))) : List (List Str) := parts.map fun p => p.map (·.2)

theorem tsv_mapM {P : Parse} : ∀ (parts : List (List (TsvNode × Str))), decodeParts P (tsvLines parts) = parts.mapM fun p => p.mapM fun x => decode P x.2 := by
  intro parts
  rw [decodeParts, tsvLines, List.mapM_map]
  congr 1
  funext p
  simp only [Function.comp_def, List.mapM_map]

theorem tsv_line_ok {P : Parse} {S : TsvShow} {n : TsvNode} {line : Str} (hn : n.Ok P S) (hl : TsvLine S n line) (hf : n.Fits) {rs : List Rec}
    (h : decode P line = some rs) : Json.LineOk rs := by
  obtain ⟨sorted, h1, h2, h3⟩ := C60_decodes_partial P S n line hn hl
  rw [h, Option.some.injEq] at h3
  subst h3
  obtain ⟨f1, f2, f3⟩ := hf
  refine ⟨?_, ⟨_, _, rfl, rfl⟩, ?_, ?_⟩
  · intro r hr
    rcases List.mem_cons.1 hr with rfl | hr
    · exact ⟨f1, .inl rfl, f2, by simp [TimeFits], by simp [TimeFits]⟩
    · obtain ⟨e, he, rfl⟩ := List.mem_map.1 hr
      obtain ⟨g1, g2⟩ := f3 e (h1.mem_iff.1 he)
      exact ⟨f1, .inr g1, g2, by simp [TimeFits, TsvEdge.record], by simp [TimeFits, TsvEdge.record]⟩
  · have hp : (sorted.map (·.record P n.id)).Pairwise (fun a b => a.typ ≤ b.typ) := by
      rw [List.pairwise_map]
      refine h2.imp ?_
      intro a b hab
      show a.typ ≤ b.typ
      omega
    intro a x y b hab hx hy hs
    cases a with
    | nil =>
      simp only [List.nil_append, List.cons.injEq] at hab
      obtain ⟨rfl, -⟩ := hab
      exact absurd rfl hx
    | cons z a =>
      simp only [List.cons_append, List.cons.injEq] at hab
      exact Json.pairwise_ordered hp a x y b hab.2 hx hy hs
  · rw [LifetimesNested, if_pos rfl]
    simp only [Option.getD_none, removalTime]
    clear h h1 h2
    induction sorted with
    | nil => trivial
    | cons e l ih =>
      rw [List.map_cons, LifetimesNested]
      split
      · exact ih
      · exact ⟨by simp [TsvEdge.record, removalTime, removalLe], ih⟩

theorem tsv_records {P : Parse} {S : TsvShow} : ∀ {ns : List (TsvNode × Str)} {rs : List (List Rec)},
    (∀ x ∈ ns, x.1.Ok P S ∧ TsvLine S x.1 x.2 ∧ x.1.Fits) → (ns.mapM fun x => decode P x.2) = some rs →
    (rs.flatten.filter fun r => r.dst ≠ -1).Perm ((tsvEdges (ns.map (·.1))).map fun x => x.2.record P x.1)
  | [], rs, _, h => by
    simp only [List.mapM_nil, Option.pure_def, Option.some.injEq] at h
    subst h
    exact .refl _
  | x :: ns, rs, hv, h => by
    obtain ⟨b, bs, h1, h2, rfl⟩ := Json.mapM_cons_inv h
    have ih := tsv_records (fun y hy => hv y (by simp [hy])) h2
    obtain ⟨v1, v2, v3⟩ := hv x (by simp)
    obtain ⟨sorted, h3, -, h4⟩ := C60_decodes_partial P S x.1 x.2 v1 v2
    rw [h1, Option.some.injEq] at h4
    subst h4
    rw [List.flatten_cons, List.filter_append, List.map_cons, tsvEdges, List.flatMap_cons, List.map_append]
    refine List.Perm.append ?_ ih
    rw [List.filter_cons, if_neg (by simp), List.filter_eq_self.2]
    · rw [List.map_map]
      exact h3.map _
    · intro r hr
      obtain ⟨e, he, rfl⟩ := List.mem_map.1 hr
      have := (v3.2.2 e (h3.mem_iff.1 he)).1
      exact decide_eq_true (show e.dst ≠ -1 by omega)

theorem tsv_edges {P : Parse} {S : TsvShow} {parts : List (List (TsvNode × Str))} (hv : TsvParts P S parts) {recs : List (List (List Rec))}
    (h : decodeParts P (tsvLines parts) = some recs) :
    (edgeRecords recs).Perm ((tsvEdges (parts.flatten.map (·.1))).map fun x => x.2.record P x.1) := by
  rw [tsv_mapM] at h
  refine tsv_records (S := S) ?_ (Json.mapM_flatten h)
  intro x hx
  obtain ⟨p, h1, h2⟩ := List.mem_flatten.1 hx
  exact hv p h1 x h2

/-- All valid lines, in any distribution over partitions and with neighbours in any order, are decoded and converted, and the graph loads. -/
theorem C60_converts (P : Parse) (S : TsvShow) (C : WeightCodec) (wm : Option Nat) (m : Meta) (parts : List (List (TsvNode × Str)))
    (hv : TsvParts P S parts) (hw : ∀ x ∈ tsvEdges (parts.flatten.map (·.1)), C.Valid (x.2.weight.getD 0)) (hm : 0 ≤ m.watermark → wm ≠ none) :
    ∃ recs, decodeParts P (tsvLines parts) = some recs ∧ ((∀ calls ∈ recs, inputSize calls + 24 < 2 ^ 64) →
      (∀ r ∈ allRecords recs, r.features.length ≤ if r.dst = -1 then m.nodeFeatureCount else m.edgeFeatureCount) →
      ∃ fs g, recs.mapM (convertPartition C wm) = some fs ∧ loadGraph C m (fs.map fun f => [f]) = some g ∧ Built C wm m recs g) := by
  obtain ⟨recs, h1⟩ : ∃ recs, decodeParts P (tsvLines parts) = some recs := by
    rw [tsv_mapM]
    refine Json.mapM_each fun p hp => Json.mapM_each fun x hx => ?_
    obtain ⟨v1, v2, -⟩ := hv p hp x hx
    obtain ⟨_, -, -, h⟩ := C60_decodes_partial P S x.1 x.2 v1 v2
    exact ⟨_, h⟩
  refine ⟨recs, h1, fun hsize hft => ?_⟩
  refine C58_accepts C wm recs ?_ hsize ?_ m hm hft
  · intro calls hc
    rw [tsv_mapM] at h1
    obtain ⟨p, hp, h2⟩ := Json.mem_mapM h1 calls hc
    refine Json.validPart_lines fun rs hrs => ?_
    obtain ⟨x, hx, h3⟩ := Json.mem_mapM h2 rs hrs
    obtain ⟨v1, v2, v3⟩ := hv p hp x hx
    exact tsv_line_ok v1 v2 v3 h3
  · intro r hr
    obtain ⟨x, hx, rfl⟩ := List.mem_map.1 ((tsv_edges hv h1).mem_iff.1 hr)
    exact hw x hx

/-- Neighbours of any node over any request without a gap (C03) are exactly the neighbours in the lines. -/
theorem C60_neighbors {P : Parse} {S : TsvShow} {C : WeightCodec} {wm : Option Nat} {m : Meta} {parts : List (List (TsvNode × Str))}
    {recs : List (List (List Rec))} {g : Graph} (hv : TsvParts P S parts) (h : decodeParts P (tsvLines parts) = some recs)
    (hb : Built C wm m recs g) (n : Int) (types : List Int) (ht : types.Pairwise (· < ·))
    (hgap : ∀ x ∈ tsvEdges (parts.flatten.map (·.1)), ∀ y ∈ tsvEdges (parts.flatten.map (·.1)), x.1 = n → y.1 = n → y.2.typ ∈ types →
      (∃ t ∈ types, x.2.typ < t ∧ t < y.2.typ) → x.2.typ ∈ types)
    (hpos : ∀ x ∈ tsvEdges (parts.flatten.map (·.1)), 0 ≤ x.2.weight.getD 0)
    (hsum : ∀ n t, (((tsvEdges (parts.flatten.map (·.1))).filter fun x => x.1 = n ∧ x.2.typ = t).map fun x => x.2.weight.getD 0).sum ≤ 2 ^ 24) :
    ∃ nbrs, g.fullNeighbor [n] none types = some (nbrs, [(tsvNeighbors (parts.flatten.map (·.1)) n types).length]) ∧
      nbrs.Perm (tsvNeighbors (parts.flatten.map (·.1)) n types) := by
  have he := tsv_edges hv h
  obtain ⟨nbrs, h1, -, h3⟩ := C03_complete_partial hb n types ht (by
    intro x hx y hy
    obtain ⟨a, ha, rfl⟩ := List.mem_map.1 (he.mem_iff.1 hx)
    obtain ⟨b, hb, rfl⟩ := List.mem_map.1 (he.mem_iff.1 hy)
    exact hgap a ha b hb)
  have hp : (neighbors recs n types).Perm (tsvNeighbors (parts.flatten.map (·.1)) n types) := by
    rw [neighbors, tsvNeighbors]
    refine ((he.filter _).map _).trans ?_
    rw [List.filter_map, List.map_map]
    exact .refl _
  have hx : ExactWeights recs := by
    refine C02_exact_of_small recs ?_ ?_
    · intro r hr
      obtain ⟨a, ha, rfl⟩ := List.mem_map.1 (he.mem_iff.1 hr)
      exact hpos a ha
    · intro n t
      have h4 : ∀ {a b : List Int}, a.Perm b → a.sum = b.sum := by
        intro a b h
        induction h with
        | nil => rfl
        | cons x _ ih => simp [ih]
        | swap x y l => simp only [List.sum_cons]; omega
        | trans _ _ h1 h2 => exact h1.trans h2
      rw [h4 ((he.filter _).map _), List.filter_map, List.map_map]
      exact hsum n t
  exact ⟨nbrs, by rw [h1, hp.length_eq], by rw [h3 hx]; exact hp⟩

theorem tsv_node {P : Parse} {S : TsvShow} (n : Int) : ∀ {ns : List (TsvNode × Str)} {rs : List (List Rec)},
    (∀ x ∈ ns, x.1.Ok P S ∧ TsvLine S x.1 x.2 ∧ x.1.Fits) → (ns.mapM fun x => decode P x.2) = some rs →
    (rs.flatten.filter fun r => r.dst = -1 ∧ r.src = n) = ((ns.map (·.1)).filter fun x => x.id = n).map
      fun x => ⟨x.id, -1, x.typ.getD 0, x.weight.getD 0, none, none, x.features.map (·.stored P)⟩
  | [], rs, _, h => by
    simp only [List.mapM_nil, Option.pure_def, Option.some.injEq] at h
    subst h
    rfl
  | x :: ns, rs, hv, h => by
    obtain ⟨b, bs, h1, h2, rfl⟩ := Json.mapM_cons_inv h
    have ih := tsv_node n (fun y hy => hv y (by simp [hy])) h2
    obtain ⟨v1, v2, v3⟩ := hv x (by simp)
    obtain ⟨sorted, h3, -, h4⟩ := C60_decodes_partial P S x.1 x.2 v1 v2
    rw [h1, Option.some.injEq] at h4
    subst h4
    have hs : (sorted.map (·.record P x.1.id)).filter (fun r => r.dst = -1 ∧ r.src = n) = [] := by
      rw [List.filter_eq_nil_iff]
      intro r hr
      obtain ⟨e, he, rfl⟩ := List.mem_map.1 hr
      have := (v3.2.2 e (h3.mem_iff.1 he)).1
      intro hh
      have h5 : e.dst = -1 := (of_decide_eq_true hh).1
      omega
    rw [List.flatten_cons, List.filter_append, ih, List.filter_cons, hs, List.map_cons, List.filter_cons]
    by_cases hx : x.1.id = n <;> simp [hx]

/-- Features of a node that is described by one line: for every request the values given, cut or filled to the requested size, zeros where
nothing was given. -/
theorem C60_features {P : Parse} {S : TsvShow} {C : WeightCodec} {wm : Option Nat} {m : Meta} {parts : List (List (TsvNode × Str))}
    {recs : List (List (List Rec))} {g : Graph} (hv : TsvParts P S parts) (h : decodeParts P (tsvLines parts) = some recs)
    (hb : Built C wm m recs g) (n : TsvNode) (hone : ((parts.flatten.map (·.1)).filter fun x => x.id = n.id) = [n])
    (feats : List (Nat × Nat)) (out : Bytes) (hout : out.length = (feats.map (·.2)).sum) :
    g.nodeFeature [n.id] none feats out =
      some (feats.flatMap fun f => fit f.2 (((n.features.map (·.stored P)).getD f.1 none).getD [])) := by
  rw [tsv_mapM] at h
  have h1 := tsv_node (S := S) n.id (by
    intro x hx
    obtain ⟨p, h1, h2⟩ := List.mem_flatten.1 hx
    exact hv p h1 x h2) (Json.mapM_flatten h)
  rw [hone] at h1
  rw [C08_node_features hb [n.id] feats out (by simpa using hout)]
  simp only [List.flatMap_cons, List.flatMap_nil, List.append_nil, Option.some.injEq]
  congr 1
  funext f
  rw [(C08_record recs n.id f.1).1 _ h1, featureOf]
  simp only [List.getD_eq_getElem?_getD]
  cases (n.features.map (·.stored P))[f.1]? <;> rfl

/-- Conversions that accept every text. -/
def Lenient (P : Parse) : Prop := (∀ s, ∃ w, P.weight s = some w) ∧ ∀ t s, ∃ b, P.number t s = some b

def lenient : Parse := ⟨fun _ => some 1, fun _ _ => some [1], fun s => s.map fun c => c.val.toUInt8⟩

theorem lenient_ok : Lenient lenient := ⟨fun _ => ⟨_, rfl⟩, fun _ _ => ⟨_, rfl⟩⟩

/-- The example in the description of the format is not converted: the type `i` of a feature becomes the key `int_feature`, for which there is no
number type (decoders.py:477-478, 491; example in 457-463). -/
theorem C60_example_refuted : ¬ ∀ P, Lenient P → ∃ rs, decode P
    "1\t0\t0.1\tf:0.1 0.2;b:str_feat;i:1 2 3\t2, 0, 0.3, 1, f:0.1 0.2;b:str_feat;i:1 2 3".toList = some rs := by
  intro h
  obtain ⟨rs, hrs⟩ := h lenient lenient_ok
  have : decode lenient "1\t0\t0.1\tf:0.1 0.2;b:str_feat;i:1 2 3\t2, 0, 0.3, 1, f:0.1 0.2;b:str_feat;i:1 2 3".toList = none := by decide +kernel
  rw [this] at hrs
  simp at hrs

/-- A neighbour in the described order `dst_id,edge_type,edge_weight,edge_label,edge_features` loses its features: the label is read as the
features (decoders.py:456, 548-550). -/
theorem C60_label_refuted : ¬ ∀ P, Lenient P → ∃ r e, decode P "1\t0\t1\t\t2,0,1,7,f:1 2".toList = some [r, e] ∧
    ∃ b, e.features[0]? = some (some b) := by
  intro h
  obtain ⟨r, e, h1, b, h2⟩ := h lenient lenient_ok
  have : decode lenient "1\t0\t1\t\t2,0,1,7,f:1 2".toList = some [⟨1, -1, 0, 1, none, none, []⟩, ⟨1, 2, 0, 1, none, none, [none]⟩] := by decide +kernel
  rw [this] at h1
  simp only [Option.some.injEq, List.cons.injEq, and_true] at h1
  rw [← h1.2] at h2
  simp at h2

/-- A text with a colon in it is dropped without an error (decoders.py:472-475). -/
theorem C60_text_refuted : ¬ ∀ P, Lenient P → ∃ r b, decode P "1\t0\t1\tb:http://a".toList = some [r] ∧ r.features = [some b] := by
  intro h
  obtain ⟨r, b, h1, h2⟩ := h lenient lenient_ok
  have : decode lenient "1\t0\t1\tb:http://a".toList = some [⟨1, -1, 0, 1, none, none, [none]⟩] := by decide +kernel
  rw [this] at h1
  simp only [Option.some.injEq, List.cons.injEq, and_true] at h1
  rw [← h1] at h2
  simp at h2

/-- A neighbour without a type is not given the type 0, the sort before fails (decoders.py:532-534, 545). -/
theorem C60_default_refuted : ¬ ∀ P, Lenient P → ∃ rs, decode P "1\t0\t1\t\t2,,1".toList = some rs := by
  intro h
  obtain ⟨rs, hrs⟩ := h lenient lenient_ok
  have : decode lenient "1\t0\t1\t\t2,,1".toList = none := by decide +kernel
  rw [this] at hrs
  simp at hrs

/-! Cases that meet the hypotheses. -/

/-- Numbers of one byte. -/
def bytesParse : Parse where
  weight := EdgeList.parseInt
  number := fun _ s => (EdgeList.parseInt s).map fun n => [UInt8.ofNat n.toNat]
  utf8 := fun s => s.map fun c => c.val.toUInt8

def bytesShow : TsvShow := ⟨intText, fun _ b => intText ((b.headD 0).toNat : Int)⟩

def exTsv : List (List (TsvNode × Str)) :=
  [[(⟨7, some 1, none, [.missing, .numbers "u8" "uint8" [[3], [40]], .text "ab".toList],
      [⟨9, 1, some 2, []⟩, ⟨8, 0, some 3, [.numbers "i8" "int8" [[5]]]⟩, ⟨3, 0, none, []⟩]⟩,
     "7\t1\t\t;u8:3 40;b:ab\t9,1,2|8,0,3,i8:5|3,0".toList)],
   [(⟨3, none, some 2, [], []⟩, "3\t\t2".toList)]]

theorem exTsv_ok : TsvParts bytesParse bytesShow exTsv := by
  have hw : ∀ w ∈ [(2 : Int), 3], TsvWeightOk bytesParse bytesShow w := by
    intro w hw
    simp at hw
    rcases hw with rfl | rfl <;> exact ⟨by decide, by decide, by decide⟩
  intro p hp x hx
  simp only [exTsv, List.mem_cons, List.not_mem_nil, or_false] at hp
  rcases hp with rfl | rfl
  · simp only [List.mem_cons, List.not_mem_nil, or_false] at hx
    subst hx
    refine ⟨⟨by simp, ⟨?_, by simp⟩, ?_⟩, ?_, ?_⟩
    · intro f hf
      simp only [List.mem_cons, List.not_mem_nil, or_false] at hf
      rcases hf with rfl | rfl | rfl
      · trivial
      · refine ⟨by decide, by decide, by decide⟩
      · refine ⟨by decide, by decide⟩
    · intro e he
      simp only [List.mem_cons, List.not_mem_nil, or_false] at he
      rcases he with rfl | rfl | rfl
      · exact ⟨fun w hww => hw w (by simp at hww; simp [← hww]), by simp, by simp⟩
      · refine ⟨fun w hww => hw w (by simp at hww; simp [← hww]), ?_, by simp⟩
        intro f hf
        simp only [List.mem_cons, List.not_mem_nil, or_false] at hf
        subst hf
        refine ⟨by decide, by decide, by decide⟩
      · exact ⟨by simp, by simp, by simp⟩
    · refine ⟨["9,1,2".toList, "8,0,3,i8:5".toList, "3,0".toList], rfl, ?_,
        ["7".toList, "1".toList, [], ";u8:3 40;b:ab".toList, "9,1,2|8,0,3,i8:5|3,0".toList], 0, by simp, by decide, by decide⟩
      intro y hy
      simp only [List.zip_cons_cons, List.zip_nil_right, List.mem_cons, List.not_mem_nil, or_false] at hy
      rcases hy with rfl | rfl | rfl
      · exact ⟨["9".toList, "1".toList, "2".toList], 1, by simp, by decide, by decide⟩
      · exact ⟨["8".toList, "0".toList, "3".toList, "i8:5".toList], 0, by simp, by decide, by decide⟩
      · exact ⟨["3".toList, "0".toList], 2, by simp, by decide, by decide⟩
    · exact ⟨by decide, by decide, by decide⟩
  · simp only [List.mem_cons, List.not_mem_nil, or_false] at hx
    subst hx
    refine ⟨⟨fun w hww => hw w (by simp at hww; simp [← hww]), ⟨by simp, by simp⟩, by simp⟩, ?_, ?_⟩
    · exact ⟨[], rfl, by simp, ["3".toList, [], "2".toList], 2, by simp, by decide, by decide⟩
    · exact ⟨by decide, by decide, by decide⟩

/-- Neighbours come in order of type and destination. -/
example : (decodeParts bytesParse (tsvLines exTsv)).map (fun recs => recs.flatten.flatten.map fun r => ([r.src, r.dst, r.typ, r.weight], r.features)) =
    some [([7, -1, 1, 0], [none, some [3, 40], some [97, 98]]), ([7, 3, 0, 0], []), ([7, 8, 0, 3], [some [5]]), ([7, 9, 1, 2], []),
      ([3, -1, 0, 2], [])] := by decide +kernel

example : ∃ recs g nbrs, decodeParts bytesParse (tsvLines exTsv) = some recs ∧ Built intCodec none ⟨3, 1, -1⟩ recs g ∧
    g.fullNeighbor [7] none [0, 1] = some (nbrs, [3]) ∧ nbrs.Perm [⟨9, 1, 2⟩, ⟨8, 0, 3⟩, ⟨3, 0, 0⟩] ∧
    g.nodeFeature [7] none [(2, 3), (0, 1), (1, 1)] [9, 9, 9, 9, 9] = some [97, 98, 0, 0, 3] := by
  obtain ⟨recs, h1, h2⟩ := C60_converts bytesParse bytesShow intCodec none ⟨3, 1, -1⟩ exTsv exTsv_ok (by
    intro x hx
    simp [tsvEdges, exTsv] at hx
    rcases hx with rfl | rfl | rfl <;> exact ⟨by decide, by decide⟩) (by simp)
  obtain ⟨fs, g, -, -, hb⟩ := h2 (by
    intro calls hc
    have : ∀ calls ∈ (decodeParts bytesParse (tsvLines exTsv)).getD [], inputSize calls + 24 < 2 ^ 64 := by decide +kernel
    rw [h1] at this
    exact this calls hc) (by
    intro r hr
    have : ∀ r ∈ allRecords ((decodeParts bytesParse (tsvLines exTsv)).getD []), r.features.length ≤ if r.dst = -1 then 3 else 1 := by decide +kernel
    rw [h1] at this
    exact this r hr)
  obtain ⟨nbrs, h3, h4⟩ := C60_neighbors exTsv_ok h1 hb 7 [0, 1] (by decide) (by decide) (by decide) (by
    intro n t
    simp only [tsvEdges, exTsv, List.flatten_cons, List.flatten_nil, List.append_nil, List.map_append, List.map_cons, List.map_nil,
      List.flatMap_append, List.flatMap_cons, List.flatMap_nil, List.nil_append]
    simp only [List.filter_cons, List.filter_nil]
    split <;> split <;> simp)
  have h5 := C60_features exTsv_ok h1 hb (exTsv[0][0].1) (by rfl) [(2, 3), (0, 1), (1, 1)] [9, 9, 9, 9, 9] rfl
  exact ⟨recs, g, nbrs, h1, hb, h3, h4, h5.trans (by decide)⟩

end DeepGNN
