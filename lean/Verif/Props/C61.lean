import Verif.Spec.EdgeListInput
import Verif.Proofs.Json
import Verif.Spec.Uploader
import Verif.Props.C05
import Verif.Props.C08
import Verif.Props.C50
import Verif.Props.C58

/-
C61 Edge lists: what is described is stored and served, for every distribution over workers.
-/

namespace DeepGNN

open Spec EdgeList

variable {V : Type}

/-- The record of a line. -/
def listRecord (E : Encode V) (r : Described V) : Rec :=
  ⟨r.src, r.dst, r.typ, E.weight r.weight, r.created, r.removed, r.features.map (·.stored E)⟩

namespace EdgeList

theorem rows_flatten {α : Type} (dim : Nat) (cs : List α) : ∀ n, (rows dim n cs).flatten = cs.take (n * dim)
  | 0 => by simp [rows]
  | n + 1 => by
    have ih := rows_flatten dim cs n
    rw [rows] at ih ⊢
    rw [List.range_succ, List.map_append, List.flatten_append, ih, Nat.succ_mul, List.take_add]
    simp

theorem convert_ok {cfg : Config V} {P : Parse V} {sh : Str → V → Str} (E : Encode V) {f : FeatureText V} (h : f.Ok cfg P sh) :
    convertFeature (toRaw E f.value) = some (f.stored E) := by
  cases f with
  | missing k => rfl
  | dense k vs => rfl
  | text s => rfl
  | sparse k dim cs vs =>
    obtain ⟨-, -, -, h1, h2, -⟩ := h
    have hv : (vs.map (E.number k)) ≠ [] := by simpa using h1
    have hlen : 0 < vs.length := List.length_pos_iff.2 h1
    simp only [FeatureText.value, toRaw]
    by_cases hd : dim = 0
    · subst hd
      have h3 : cs.length = vs.length := by simpa using h2
      rw [if_pos rfl, convertFeature, if_neg (by
        simp only [Coords.shape0, hv, or_false]
        omega), if_pos]
      · simp only [Coords.flat, Coords.lastDim, FeatureText.stored, List.flatMap_def, Nat.max_eq_right (Nat.zero_le 1)]
      · rw [shapesOk]
        split
        · simp [Coords.shape0, h3]
        · rfl
    · have hmax : max dim 1 = dim := by omega
      rw [hmax] at h2
      have hr : (rows dim vs.length cs).length = vs.length := by simp [rows]
      rw [if_neg hd, convertFeature, if_neg (by
        simp only [Coords.shape0, hv, hr, or_false]
        omega), if_pos]
      · simp only [Coords.flat, Coords.lastDim, FeatureText.stored, rows_flatten, hmax]
        rw [List.take_of_length_le (by omega)]
        simp [List.flatMap_def]
      · rw [shapesOk]
        split
        · simp [Coords.shape0, hr]
        · rename_i hle
          simp only [List.length_map] at hle
          simp only [hr, beq_iff_eq]
          omega

theorem mapM_convert {cfg : Config V} {P : Parse V} {sh : Str → V → Str} (E : Encode V) : ∀ {fs : List (FeatureText V)}, (∀ f ∈ fs, f.Ok cfg P sh) →
    ((fs.map (·.value)).map (toRaw E)).mapM convertFeature = some (fs.map (·.stored E))
  | [], _ => rfl
  | f :: fs, h => by
    rw [List.map_cons, List.map_cons, List.mapM_cons, convert_ok E (h f (by simp)), mapM_convert E fun x hx => h x (by simp [hx])]
    rfl

end EdgeList

/-- For all configurations and records: the line written for a record (with the simplifications of C50) becomes one call with this record, its features
in the bytes of the file format. -/
theorem C61_decodes {cfg : Config V} {P : Parse V} {sh : Str → V → Str} {showWeight : V → Str} (E : Encode V) {r : Described V}
    (hc : DelimitersOk cfg) (hr : r.Ok cfg P sh showWeight) :
    call cfg P E (joinFields cfg.delimiter (recordFields cfg sh showWeight r)) =
      some [⟨r.src, r.dst, r.typ, E.weight r.weight, r.created, r.removed, r.features.map (·.stored E)⟩] := by
  rw [call, C50_decode_partial hc hr, Option.bind_some, List.mapM_cons, toRec, mapM_convert E hr.features]
  rfl

/-- The lines of a file as texts. -/
def listLines (cfg : Config V) (sh : Str → V → Str) (showWeight : V → Str) (parts : List (List (Described V))) : List (List Str) :=
  parts.map fun p => p.map fun r => joinFields cfg.delimiter (recordFields cfg sh showWeight r)

theorem list_decoded {cfg : Config V} {P : Parse V} {sh : Str → V → Str} {showWeight : V → Str} (E : Encode V) (hc : DelimitersOk cfg)
    {parts : List (List (Described V))} (hr : ∀ p ∈ parts, ∀ r ∈ p, r.Ok cfg P sh showWeight) :
    decodeParts cfg P E (listLines cfg sh showWeight parts) = some (parts.map fun p => p.map fun r => [listRecord E r]) := by
  have h1 : ∀ {p : List (Described V)}, (∀ r ∈ p, r.Ok cfg P sh showWeight) →
      (p.map fun r => joinFields cfg.delimiter (recordFields cfg sh showWeight r)).mapM (call cfg P E) = some (p.map fun r => [listRecord E r]) := by
    intro p
    induction p with
    | nil => intro _; rfl
    | cons r p ih =>
      intro h
      rw [List.map_cons, List.mapM_cons, C61_decodes E hc (h r (by simp)), ih fun x hx => h x (by simp [hx])]
      rfl
  rw [decodeParts, listLines]
  induction parts with
  | nil => rfl
  | cons p parts ih =>
    rw [List.map_cons, List.mapM_cons, h1 (hr p (by simp)), ih fun q hq => hr q (by simp [hq])]
    rfl

theorem flatten_single {α β : Type} (f : α → β) (l : List α) : (l.map fun a => [f a]).flatten = l.map f := by
  induction l with
  | nil => rfl
  | cons a l ih => simp [ih]

theorem list_all (E : Encode V) (parts : List (List (Described V))) :
    allRecords (parts.map fun p => p.map fun r => [listRecord E r]) = parts.flatten.map (listRecord E) := by
  rw [allRecords]
  induction parts with
  | nil => rfl
  | cons p parts ih => rw [List.map_cons, List.flatten_cons, List.flatten_append, ih, flatten_single, List.flatten_cons, List.map_append]

theorem list_timed (E : Encode V) (parts : List (List (Described V))) :
    allTimedEdges (parts.map fun p => p.map fun r => [listRecord E r]) = listEdges E parts.flatten := by
  have h1 : ∀ p : List (Described V), (p.map fun r => [listRecord E r]).flatMap (timedEdges 0 none) = listEdges E p := by
    intro p
    induction p with
    | nil => rfl
    | cons r p ih =>
      rw [List.map_cons, List.flatMap_cons, ih, listEdges, listEdges, List.filter_cons, timedEdges]
      by_cases hd : r.dst = -1
      · rw [if_pos (show (listRecord E r).dst = -1 from hd)]
        simp [hd, timedEdges]
      · rw [if_neg (show ¬ (listRecord E r).dst = -1 from hd)]
        simp [hd, timedEdges, listTimed, listRecord]
  rw [allTimedEdges, ← h1]
  congr 1
  induction parts with
  | nil => rfl
  | cons p parts ih => rw [List.map_cons, List.flatten_cons, ih, List.flatten_cons, List.map_append]

/-- All files whose lines fit and where the edges of a node come in order of their types are converted, however the lines are distributed over any number of
workers, and the graph loads. -/
theorem C61_converts {cfg : Config V} {P : Parse V} {sh : Str → V → Str} {showWeight : V → Str} (E : Encode V) (C : WeightCodec) (wm : Option Nat)
    (m : Meta) (hc : DelimitersOk cfg) {file : List (Described V)} {parts : List (List (Described V))} (hd : Distributes file parts)
    (hr : ∀ r ∈ file, r.Ok cfg P sh showWeight ∧ LineFits r) (hs : TypesSorted file)
    (hw : ∀ r ∈ file, r.dst ≠ -1 → C.Valid (E.weight r.weight)) (hm : 0 ≤ m.watermark → wm ≠ none)
    (hft : ∀ r ∈ file, r.features.length ≤ if r.dst = -1 then m.nodeFeatureCount else m.edgeFeatureCount) :
    ∃ recs, decodeParts cfg P E (listLines cfg sh showWeight parts) = some recs ∧ ((∀ calls ∈ recs, inputSize calls + 24 < 2 ^ 64) →
      ∃ fs g, recs.mapM (convertPartition C wm) = some fs ∧ loadGraph C m (fs.map fun f => [f]) = some g ∧ Built C wm m recs g) := by
  have hmem : ∀ p ∈ parts, ∀ r ∈ p, r ∈ file := fun p hp r hrp => (hd.2 p hp).mem hrp
  refine ⟨_, list_decoded E hc (fun p hp r hrp => (hr r (hmem p hp r hrp)).1), fun hsize => ?_⟩
  have hall : ∀ r ∈ allRecords (parts.map fun p => p.map fun r => [listRecord E r]), ∃ x ∈ file, r = listRecord E x := by
    intro r hrm
    rw [list_all] at hrm
    obtain ⟨x, hx, rfl⟩ := List.mem_map.1 hrm
    exact ⟨x, hd.1.mem_iff.1 hx, rfl⟩
  refine C58_accepts C wm _ ?_ hsize ?_ m hm ?_
  · intro calls hcm
    obtain ⟨p, hp, rfl⟩ := List.mem_map.1 hcm
    refine ⟨?_, ?_, ?_⟩
    · intro r hrm
      rw [flatten_single] at hrm
      obtain ⟨x, hx, rfl⟩ := List.mem_map.1 hrm
      obtain ⟨f1, f2, f3, f4, f5, -⟩ := (hr x (hmem p hp x hx)).2
      exact ⟨f1, f2, f3, f4, f5⟩
    · rw [flatten_single]
      have hsp : TypesSorted p := hs.sublist (hd.2 p hp)
      intro a x y b hab hx hy hxy
      have h1 : (p.map (listRecord E)).Pairwise fun a b => a.dst ≠ -1 → b.dst ≠ -1 → a.src = b.src → a.typ ≤ b.typ :=
        List.pairwise_map.2 hsp
      rw [hab] at h1
      have h2 := (List.pairwise_append.1 h1).2.1
      rw [List.pairwise_cons] at h2
      exact h2.1 y (by simp) hx hy hxy
    · intro call hcall
      obtain ⟨x, hx, rfl⟩ := List.mem_map.1 hcall
      rw [LifetimesNested]
      split
      · trivial
      · refine ⟨⟨?_, ?_⟩, trivial⟩
        · have := (hr x (hmem p hp x hx)).2.2.2.2.2.2
          show 0 ≤ x.created.getD 0
          cases hxc : x.created with
          | none => simp
          | some c => exact this c hxc
        · rw [removalLe]
          trivial
  · intro r hrm
    obtain ⟨h1, h2⟩ := List.mem_filter.1 hrm
    obtain ⟨x, hx, rfl⟩ := hall r h1
    exact hw x hx (of_decide_eq_true h2)
  · intro r hrm
    obtain ⟨x, hx, rfl⟩ := hall r hrm
    have h1 : (listRecord E x).features.length = x.features.length := List.length_map ..
    rw [h1]
    by_cases hx1 : x.dst = -1
    · have := hft x hx
      rw [if_pos hx1] at this
      rw [if_pos (show (listRecord E x).dst = -1 from hx1)]
      exact this
    · have := hft x hx
      rw [if_neg hx1] at this
      rw [if_neg (show ¬ (listRecord E x).dst = -1 from hx1)]
      exact this

/-- The requested types have no gap (C03). -/
def ListNoGap (file : List (Described V)) (n : Int) (types : List Int) : Prop :=
  ∀ x ∈ file, ∀ y ∈ file, x.dst ≠ -1 → y.dst ≠ -1 → x.src = n → y.src = n → y.typ ∈ types → (∃ t ∈ types, x.typ < t ∧ t < y.typ) → x.typ ∈ types

/-- Weights are not negative and add up to at most `2^24` for every node and type. -/
def ListSmallWeights (E : Encode V) (file : List (Described V)) : Prop :=
  (∀ e ∈ listEdges E file, 0 ≤ e.weight) ∧ ∀ n t, (((listEdges E file).filter fun e => e.src = n ∧ e.typ = t).map (·.weight)).sum ≤ 2 ^ 24

theorem perm_sum {a b : List Int} (h : a.Perm b) : a.sum = b.sum := by
  induction h with
  | nil => rfl
  | cons x _ ih => simp [ih]
  | swap x y l => simp only [List.sum_cons]; omega
  | trans _ _ h1 h2 => exact h1.trans h2

theorem listEdges_perm (E : Encode V) {file : List (Described V)} {parts : List (List (Described V))} (hd : Distributes file parts) :
    (listEdges E parts.flatten).Perm (listEdges E file) := (hd.1.filter _).map _

theorem list_exact (E : Encode V) {file : List (Described V)} {parts : List (List (Described V))} (hd : Distributes file parts)
    (hw : ListSmallWeights E file) : ExactWeights (parts.map fun p => p.map fun r => [listRecord E r]) := by
  have ht := list_timed E parts
  refine C02_exact_of_small _ ?_ ?_
  · intro r hr
    obtain ⟨e, he, -, -, hew⟩ := Json.record_timed hr
    rw [← hew]
    rw [ht] at he
    exact hw.1 e ((listEdges_perm E hd).mem_iff.1 he)
  · intro n t
    have h1 := Json.neighbors_timed (parts.map fun p => p.map fun r => [listRecord E r]) n [t]
    rw [neighbors] at h1
    have h2 := congrArg (List.map Nbr.weight) h1
    simp only [List.map_map, Function.comp_def, List.mem_singleton] at h2
    rw [h2, ht, perm_sum (((listEdges_perm E hd).filter _).map _)]
    exact hw.2 n t

theorem list_gap (E : Encode V) {file : List (Described V)} {parts : List (List (Described V))} (hd : Distributes file parts) {n : Int}
    {types : List Int} (hg : ListNoGap file n types) : ∀ x ∈ edgeRecords (parts.map fun p => p.map fun r => [listRecord E r]),
    ∀ y ∈ edgeRecords (parts.map fun p => p.map fun r => [listRecord E r]), x.src = n → y.src = n → y.typ ∈ types →
      (∃ t ∈ types, x.typ < t ∧ t < y.typ) → x.typ ∈ types := by
  intro x hx y hy
  rw [edgeRecords, list_all] at hx hy
  obtain ⟨h1, h2⟩ := List.mem_filter.1 hx
  obtain ⟨h3, h4⟩ := List.mem_filter.1 hy
  obtain ⟨a, ha, rfl⟩ := List.mem_map.1 h1
  obtain ⟨b, hb, rfl⟩ := List.mem_map.1 h3
  exact hg a (hd.1.mem_iff.1 ha) b (hd.1.mem_iff.1 hb) (of_decide_eq_true h2) (of_decide_eq_true h4)

/-- Neighbours of any node over any request without a gap are exactly the edges of the file, for every distribution over workers. -/
theorem C61_neighbors {cfg : Config V} {P : Parse V} {sh : Str → V → Str} {showWeight : V → Str} (E : Encode V) {C : WeightCodec} {wm : Option Nat}
    {m : Meta} {recs : List (List (List Rec))} {g : Graph} (hc : DelimitersOk cfg) {file : List (Described V)} {parts : List (List (Described V))}
    (hd : Distributes file parts) (hr : ∀ r ∈ file, r.Ok cfg P sh showWeight) (h : decodeParts cfg P E (listLines cfg sh showWeight parts) = some recs)
    (hb : Built C wm m recs g) (n : Int) (types : List Int) (ht : types.Pairwise (· < ·)) (hgap : ListNoGap file n types) :
    ∃ nbrs, g.fullNeighbor [n] none types = some (nbrs, [(listNeighbors E file n types).length]) ∧
      (nbrs.map fun x => (x.dst, x.typ)).Perm ((listNeighbors E file n types).map fun x => (x.dst, x.typ)) ∧
      (ListSmallWeights E file → nbrs.Perm (listNeighbors E file n types)) := by
  rw [list_decoded E hc (fun p hp r hrp => hr r ((hd.2 p hp).mem hrp)), Option.some.injEq] at h
  subst h
  obtain ⟨nbrs, h1, h2, h3⟩ := C03_complete_partial hb n types ht (list_gap E hd hgap)
  have hp : (neighbors (parts.map fun p => p.map fun r => [listRecord E r]) n types).Perm (listNeighbors E file n types) := by
    rw [Json.neighbors_timed, list_timed]
    exact ((listEdges_perm E hd).filter _).map _
  refine ⟨nbrs, by rw [h1, hp.length_eq], by rw [h2]; exact hp.map _, ?_⟩
  intro hw
  rw [h3 (list_exact E hd hw)]
  exact hp

/-- Neighbours at any time are exactly the edges of the file that live at this time, if no removal time is 0 (C05). -/
theorem C61_snapshot_partial {cfg : Config V} {P : Parse V} {sh : Str → V → Str} {showWeight : V → Str} (E : Encode V) {C : WeightCodec} {wm : Option Nat}
    {m : Meta} {recs : List (List (List Rec))} {g : Graph} (hc : DelimitersOk cfg) {file : List (Described V)} {parts : List (List (Described V))}
    (hd : Distributes file parts) (hr : ∀ r ∈ file, r.Ok cfg P sh showWeight ∧ LineFits r)
    (h : decodeParts cfg P E (listLines cfg sh showWeight parts) = some recs)
    (hb : Built C wm m recs g) (hwm : 0 ≤ m.watermark) (hz : ∀ r ∈ file, r.removed ≠ some 0) (n t : Int) (types : List Int)
    (ht : types.Pairwise (· < ·)) (hgap : ListNoGap file n types) :
    ∃ nbrs, g.fullNeighbor [n] (some [t]) types = some (nbrs, [(listNeighborsAt E file n t types).length]) ∧
      (nbrs.map fun x => (x.dst, x.typ)).Perm ((listNeighborsAt E file n t types).map fun x => (x.dst, x.typ)) ∧
      (ListSmallWeights E file → nbrs.Perm (listNeighborsAt E file n t types)) := by
  rw [list_decoded E hc (fun p hp r hrp => (hr r ((hd.2 p hp).mem hrp)).1), Option.some.injEq] at h
  subst h
  have hall : ∀ r ∈ allRecords (parts.map fun p => p.map fun r => [listRecord E r]), ∃ x ∈ file, r = listRecord E x := by
    intro r hrm
    rw [list_all] at hrm
    obtain ⟨x, hx, rfl⟩ := List.mem_map.1 hrm
    exact ⟨x, hd.1.mem_iff.1 hx, rfl⟩
  obtain ⟨nbrs, h1, h2, h3⟩ := C05_snapshot_partial hb hwm n t types ht (list_gap E hd hgap) (by
    intro r hrm
    obtain ⟨x, hx, rfl⟩ := hall r hrm
    exact (hr x hx).2.2.2.2.2.2) (by
    intro r hrm
    obtain ⟨x, hx, rfl⟩ := hall r hrm
    exact hz x hx)
  have hp : (neighborsAt (parts.map fun p => p.map fun r => [listRecord E r]) n t types).Perm (listNeighborsAt E file n t types) := by
    rw [neighborsAt, list_timed]
    exact ((listEdges_perm E hd).filter _).map _
  refine ⟨nbrs, by rw [h1, hp.length_eq], by rw [h2]; exact hp.map _, ?_⟩
  intro hw
  rw [h3 (list_exact E hd hw)]
  exact hp

/-- Features of a node with one line: for every request the values in the line, cut or filled to the requested size, zeros where nothing was given. -/
theorem C61_features {cfg : Config V} {P : Parse V} {sh : Str → V → Str} {showWeight : V → Str} (E : Encode V) {C : WeightCodec} {wm : Option Nat}
    {m : Meta} {recs : List (List (List Rec))} {g : Graph} (hc : DelimitersOk cfg) {file : List (Described V)} {parts : List (List (Described V))}
    (hd : Distributes file parts) (hr : ∀ r ∈ file, r.Ok cfg P sh showWeight) (h : decodeParts cfg P E (listLines cfg sh showWeight parts) = some recs)
    (hb : Built C wm m recs g) (n : Described V) (hone : (file.filter fun x => x.dst = -1 ∧ x.src = n.src) = [n])
    (feats : List (Nat × Nat)) (out : Bytes) (hout : out.length = (feats.map (·.2)).sum) :
    g.nodeFeature [n.src] none feats out = some (feats.flatMap fun f => fit f.2 (((n.features.map (·.stored E)).getD f.1 none).getD [])) := by
  rw [list_decoded E hc (fun p hp r hrp => hr r ((hd.2 p hp).mem hrp)), Option.some.injEq] at h
  subst h
  have h1 : nodeRecords (parts.map fun p => p.map fun r => [listRecord E r]) n.src = [listRecord E n] := by
    rw [nodeRecords, list_all, List.filter_map]
    have h2 := hd.1.filter fun x => decide (x.dst = -1 ∧ x.src = n.src)
    rw [hone] at h2
    have h3 := List.perm_singleton.1 h2
    exact congrArg (List.map (listRecord E)) h3
  rw [C08_node_features hb [n.src] feats out (by simpa using hout)]
  simp only [List.flatMap_cons, List.flatMap_nil, List.append_nil, Option.some.injEq]
  congr 1
  funext f
  rw [(C08_record _ n.src f.1).1 _ h1, featureOf]
  simp only [List.getD_eq_getElem?_getD, listRecord]
  cases (n.features.map (·.stored E))[f.1]? <;> rfl

namespace EdgeList

/-- Values as single bytes. -/
def exEncode : Encode Int := ⟨id, fun _ v => [UInt8.ofNat v.toNat], fun s => s.map fun c => UInt8.ofNat c.toNat⟩

/-- Another edge of `exNode`. -/
def exEdge2 : Described Int := { exEdge with dst := 6, weight := 2, features := [.sparse "uint8".toList 0 [1, 2, 8] [9, 9, 7]] }

theorem exEdge2_ok : exEdge2.Ok exDefaults exParse (fun _ => intText) intText := by
  constructor
  · intro h; exact absurd h (by decide)
  · intro _ t ht; cases ht; rfl
  · intro _ h; cases h
  · intro w hw; cases hw
  · decide +kernel
  · exact ⟨3, rfl, by intro d hd; cases hd⟩
  · exact ⟨9, rfl, by intro d hd; cases hd; rfl⟩
  · intro f hf
    simp only [exEdge2, List.mem_cons, List.not_mem_nil, or_false] at hf
    rcases hf with rfl
    exact ⟨by decide +kernel, by decide +kernel, by decide +kernel, by decide +kernel, by decide +kernel, by decide +kernel⟩
  · refine ⟨⟨?_, ?_⟩, rfl⟩ <;> (intro k hk; cases hk) <;> rfl

/-- Three lines, given to two workers. -/
def exFile : List (Described Int) := [exNode, exEdge, exEdge2]

def exWorkers : List (List (Described Int)) := [[exNode, exEdge2], [exEdge]]

theorem exWorkers_ok : Distributes exFile exWorkers := by
  refine ⟨?_, ?_⟩
  · exact (List.Perm.swap exEdge exEdge2 []).cons exNode
  · intro p hp
    simp only [exWorkers, List.mem_cons, List.not_mem_nil, or_false] at hp
    rcases hp with rfl | rfl
    · exact ((List.Sublist.refl [exEdge2]).cons exEdge).cons_cons exNode
    · exact ((List.nil_sublist [exEdge2]).cons_cons exEdge).cons exNode

end EdgeList

/-- The hypotheses of the theorems above hold for the three lines, and this is what the graph gives. -/
example : (∀ r ∈ exFile, r.Ok exDefaults exParse (fun _ => intText) intText ∧ LineFits r) ∧ TypesSorted exFile ∧ ListNoGap exFile 12 [0] ∧
    ListSmallWeights exEncode exFile ∧ (exFile.filter fun x => x.dst = -1 ∧ x.src = exNode.src) = [exNode] ∧
    listNeighborsAt exEncode exFile 12 5 [0] = [⟨4, 0, 5⟩, ⟨6, 0, 2⟩] ∧ listNeighborsAt exEncode exFile 12 9 [0] = [] ∧
    ∃ recs g, decodeParts exDefaults exParse exEncode (listLines exDefaults (fun _ => intText) intText exWorkers) = some recs ∧
      Built intCodec (some 9) ⟨4, 2, 9⟩ recs g ∧ g.fullNeighbor [12] (some [5]) [0] = some ([⟨6, 0, 2⟩, ⟨4, 0, 5⟩], [2]) := by
  refine ⟨?_, ?_, ?_, ⟨by decide +kernel, ?_⟩, rfl, by decide +kernel, by decide +kernel, ?_⟩
  · intro r hr
    simp only [exFile, List.mem_cons, List.not_mem_nil, or_false] at hr
    rcases hr with rfl | rfl | rfl
    · exact ⟨exNode_ok, by decide, by decide, by decide, (by intro t ht; cases ht; decide), (by intro t ht; cases ht; decide),
        by intro c hc; cases hc; decide⟩
    · exact ⟨exEdge_ok, by decide, by decide, by decide, (by intro t ht; cases ht; decide), (by intro t ht; cases ht; decide),
        by intro c hc; cases hc; decide⟩
    · exact ⟨exEdge2_ok, by decide, by decide, by decide, (by intro t ht; cases ht; decide), (by intro t ht; cases ht; decide),
        by intro c hc; cases hc; decide⟩
  · simp [TypesSorted, exFile, exNode, exEdge, exEdge2]
  · intro x hx y hy _ _ _ _ _ ⟨t, ht, h1, h2⟩
    have h3 : ∀ z ∈ exFile, 0 ≤ z.typ ∧ z.typ ≤ 1 := by decide +kernel
    have h4 := h3 x hx
    have h5 := h3 y hy
    simp only [List.mem_singleton] at ht
    omega
  · intro n t
    have h1 : listEdges exEncode exFile = [⟨12, 4, 0, 5, 3, some 9⟩, ⟨12, 6, 0, 2, 3, some 9⟩] := rfl
    rw [h1]
    simp only [List.filter_cons, List.filter_nil]
    split <;> decide
  · have hd := list_decoded (P := exParse) (sh := fun _ => intText) (showWeight := intText) exEncode exDefaults_ok (parts := exWorkers) (by
      intro p hp r hr
      simp only [exWorkers, List.mem_cons, List.not_mem_nil, or_false] at hp
      rcases hp with rfl | rfl <;> simp only [List.mem_cons, List.not_mem_nil, or_false] at hr
      · rcases hr with rfl | rfl
        · exact exNode_ok
        · exact exEdge2_ok
      · subst hr
        exact exEdge_ok)
    obtain ⟨g, hg, hb⟩ := built_of_check (wm := some 9) (m := ⟨4, 2, 9⟩) (parts := exWorkers.map fun p => p.map fun r => [listRecord exEncode r])
      (by decide +kernel)
    have : (graphOf intCodec (some 9) ⟨4, 2, 9⟩ (exWorkers.map fun p => p.map fun r => [listRecord exEncode r])).bind
        (fun g => g.fullNeighbor [12] (some [5]) [0]) = some ([⟨6, 0, 2⟩, ⟨4, 0, 5⟩], [2]) := by decide +kernel
    rw [hg] at this
    exact ⟨_, g, hd, hb, this⟩

/-- The claim that edges are served only while their node exists, which the converter checks for nodes and edges given in one JSON line, fails for
edge lists: node 12 exists during `[3, 9)`, the line of its edge says `[3, 20)`, and the edge is served at time 15. Every line is a call of
its own and the times of the node are forgotten. -/
theorem C61_lifetime_refuted : ∃ recs g, decodeParts exConfig exParse exEncode [["12,-1,0,1,3,9".toList, "12,0,4,1,3,20".toList]] = some recs ∧
    Built intCodec (some 30) ⟨0, 0, 30⟩ recs g ∧ g.fullNeighbor [12] (some [15]) [0] = some ([⟨4, 0, 1⟩], [1]) ∧
    convertPartition intCodec (some 30) [recs.flatten.flatten] = none := by
  obtain ⟨g, hg, hb⟩ := built_of_check (wm := some 30) (m := ⟨0, 0, 30⟩)
    (parts := [[[⟨12, -1, 0, 1, some 3, some 9, []⟩], [⟨12, 4, 0, 1, some 3, some 20, []⟩]]]) (by decide +kernel)
  have : (graphOf intCodec (some 30) ⟨0, 0, 30⟩ [[[⟨12, -1, 0, 1, some 3, some 9, []⟩], [⟨12, 4, 0, 1, some 3, some 20, []⟩]]]).bind
      (fun g => g.fullNeighbor [12] (some [15]) [0]) = some ([⟨4, 0, 1⟩], [1]) := by decide +kernel
  rw [hg] at this
  exact ⟨_, g, by decide +kernel, hb, this, by decide +kernel⟩

/-- The claim that the number of workers does not matter fails for files where the edges of a node are not in order of types: the lines of nodes 1, 2, 1
are converted by one worker, while with two workers that take turns, lines 0 and 2 become neighbours in one partition and the conversion is refused. -/
theorem C61_workers_refuted : ∃ file : List Str,
    ((decodeParts exConfig exParse exEncode [file]).bind fun recs => recs.mapM (convertPartition intCodec none)).isSome ∧
    ((decodeParts exConfig exParse exEncode [roundRobin 2 0 0 file, roundRobin 2 0 1 file]).bind fun recs =>
      recs.mapM (convertPartition intCodec none)) = none ∧
    (decodeParts exConfig exParse exEncode [roundRobin 2 0 0 file, roundRobin 2 0 1 file]).isSome :=
  ⟨["1,1,5,1,0,-1".toList, "2,0,5,1,0,-1".toList, "1,0,5,1,0,-1".toList], by decide +kernel, by decide +kernel, by decide +kernel⟩

end DeepGNN
