import Verif.Model.Writer
import Verif.Proofs.Bytes
import Verif.Proofs.Csr

namespace DeepGNN

/-- Ghost description of a written edge. -/
structure GEdge where
  dst : Int
  typ : Int
  weight : Int
  feats : List (Option Bytes)
  created : Int
  removed : Int

/-- Ghost description of a written node block: one node map record and the edges written
until the next node map record. -/
structure Blk where
  id : Int
  typ : Int
  feats : List (Option Bytes)
  edges : List GEdge

/-- Size in the data file of a feature. -/
def featSize : Option Bytes → Nat
  | none => 0
  | some b => b.length

/-- Bytes in the data file of a feature. -/
def featBytes : Option Bytes → Bytes
  | none => []
  | some b => b

theorem length_featBytes (f : Option Bytes) : (featBytes f).length = featSize f := by
  cases f <;> rfl

/-- Pair every element with the total size of the previous ones. -/
def withOffs {α} (sz : α → Nat) (a : Nat) : List α → List (α × Nat)
  | [] => []
  | x :: xs => (x, a) :: withOffs sz (a + sz x) xs

theorem withOffs_append {α} (sz : α → Nat) (a : Nat) (l k : List α) :
    withOffs sz a (l ++ k) = withOffs sz a l ++ withOffs sz (a + (l.map sz).sum) k := by
  induction l generalizing a with
  | nil => simp [withOffs]
  | cons x xs ih => simp [withOffs, ih, Nat.add_assoc]

theorem map_fst_withOffs {α} (sz : α → Nat) (a : Nat) (l : List α) :
    (withOffs sz a l).map (·.1) = l := by
  induction l generalizing a with
  | nil => rfl
  | cons x xs ih => simp [withOffs, ih]

theorem map_snd_withOffs {α} (sz : α → Nat) (a : Nat) (l : List α) :
    (withOffs sz a l).map (·.2) = starts a (l.map sz) := by
  induction l generalizing a with
  | nil => rfl
  | cons x xs ih => simp [withOffs, starts, ih]

@[simp] theorem length_withOffs {α} (sz : α → Nat) (a : Nat) (l : List α) :
    (withOffs sz a l).length = l.length := by
  induction l generalizing a with
  | nil => rfl
  | cons x xs ih => simp [withOffs, ih]

/-- Bytes of a node map record. -/
def nodeRecBytes (x : Blk × Nat) : Bytes :=
  leBytes 8 x.1.id.toNat ++ leBytes 8 x.2 ++ leBytes 4 (x.1.typ % 2 ^ 32).toNat

/-- Bytes of an edge index record. -/
def edgeRecBytes (C : WeightCodec) (x : GEdge × Nat) : Bytes :=
  leBytes 8 x.1.dst.toNat ++ leBytes 8 x.2 ++ leBytes 4 (x.1.typ % 2 ^ 32).toNat ++ C.enc x.1.weight

/-- Bytes of an edge timestamp record. -/
def tsBytes (e : GEdge) : Bytes :=
  leBytes 8 (e.created % 2 ^ 64).toNat ++ leBytes 8 (e.removed % 2 ^ 64).toNat

def nfeats (e : GEdge) : Nat := e.feats.length

/-- All edges, all node features, all edge features, in file order. -/
def allEdges (bs : List Blk) : List GEdge := bs.flatMap (·.edges)
def allNodeFeats (bs : List Blk) : List (Option Bytes) := bs.flatMap (·.feats)
def allEdgeFeats (bs : List Blk) : List (Option Bytes) := (allEdges bs).flatMap (·.feats)

/-- Invariant of the writers after any number of records. -/
structure WInv (C : WeightCodec) (node : NodeWriter) (edge : EdgeWriter) (prevNode prevEdge : Option Int)
    (bs : List Blk) : Prop where
  nm : node.nm = bs.zipIdx.flatMap nodeRecBytes
  count : node.count = bs.length
  ni : node.fw.ni = (starts 0 (bs.map (·.feats.length))).flatMap cU64
  nfi : node.fw.nfi = (starts 0 ((allNodeFeats bs).map featSize)).flatMap cU64
  nfd : node.fw.nfd = (allNodeFeats bs).flatMap featBytes
  nfdPos : node.fw.nfdPos = ((allNodeFeats bs).map featSize).sum
  nfc : ∀ b ∈ bs, b.feats.length ≤ node.fw.featureCount
  nbi : edge.nbi = (starts 0 (bs.map (·.edges.length))).flatMap cU64
  ei : edge.ei = (withOffs nfeats 0 (allEdges bs)).flatMap (edgeRecBytes C)
  efiPos : edge.efiPos = 8 * (allEdgeFeats bs).length
  efi : edge.fw.efi = (starts 0 ((allEdgeFeats bs).map featSize)).flatMap cU64
  efd : edge.fw.efd = (allEdgeFeats bs).flatMap featBytes
  efdPos : edge.fw.efdPos = ((allEdgeFeats bs).map featSize).sum
  efc : ∀ e ∈ allEdges bs, e.feats.length ≤ edge.fw.featureCount
  eti : edge.eti = match edge.watermark with
    | none => []
    | some t => cU64 t ++ (allEdges bs).flatMap tsBytes
  prevN : prevNode = bs.getLast?.map (·.id)
  prevE : prevEdge = bs.getLast?.bind (fun b => b.edges.getLast?.map (·.typ))
  idRange : ∀ b ∈ bs, 0 ≤ b.id ∧ b.id < 2 ^ 64
  typRange : ∀ b ∈ bs, -(2 ^ 31) ≤ b.typ ∧ b.typ < 2 ^ 31
  dstRange : ∀ e ∈ allEdges bs, 0 ≤ e.dst ∧ e.dst < 2 ^ 64
  etypRange : ∀ e ∈ allEdges bs, 0 ≤ e.typ ∧ e.typ < 2 ^ 31
  sorted : ∀ b ∈ bs, b.edges.Pairwise (fun x y => x.typ ≤ y.typ)
  times : edge.watermark ≠ none → ∀ e ∈ allEdges bs,
    (-(2 ^ 63) ≤ e.created ∧ e.created < 2 ^ 63) ∧ (-(2 ^ 63) ≤ e.removed ∧ e.removed < 2 ^ 63)

theorem length_edgeRecBytes (C : WeightCodec) (x : GEdge × Nat) : (edgeRecBytes C x).length = 24 := by
  simp [edgeRecBytes, C.len]

theorem length_nodeRecBytes (x : Blk × Nat) : (nodeRecBytes x).length = 20 := by
  simp [nodeRecBytes]

theorem WInv.init (C : WeightCodec) (wm : Option Nat) :
    WInv C {} (EdgeWriter.init wm) none none [] := by
  constructor <;> simp [EdgeWriter.init, allEdges, allNodeFeats, allEdgeFeats, withOffs, starts] <;>
    (cases wm <;> simp)

/-- Effect of `NodeFeatureWriter.add`'s loop. -/
theorem nodeFeature_fold (fs : List (Option Bytes)) (w : NodeFeatureWriter) :
    fs.foldl NodeFeatureWriter.addFeature w =
      { w with nfi := w.nfi ++ (starts w.nfdPos (fs.map featSize)).flatMap cU64
               nfd := w.nfd ++ fs.flatMap featBytes
               nfdPos := w.nfdPos + (fs.map featSize).sum } := by
  induction fs generalizing w with
  | nil => simp [starts]
  | cons f fs ih =>
    rw [List.foldl_cons, ih]
    cases f <;> simp [NodeFeatureWriter.addFeature, featSize, featBytes, starts, Nat.add_assoc]

theorem edgeFeature_fold (fs : List (Option Bytes)) (w : EdgeFeatureWriter) :
    fs.foldl EdgeFeatureWriter.addFeature w =
      { w with efi := w.efi ++ (starts w.efdPos (fs.map featSize)).flatMap cU64
               efd := w.efd ++ fs.flatMap featBytes
               efdPos := w.efdPos + (fs.map featSize).sum } := by
  induction fs generalizing w with
  | nil => simp [starts]
  | cons f fs ih =>
    rw [List.foldl_cons, ih]
    cases f <;> simp [EdgeFeatureWriter.addFeature, featSize, featBytes, starts, Nat.add_assoc]

theorem length_flatMap_cU64 (l : List Nat) : (l.flatMap cU64).length = l.length * 8 :=
  length_flatMap_const _ _ (by simp)

theorem allEdges_snoc (bs : List Blk) (b : Blk) : allEdges (bs ++ [b]) = allEdges bs ++ b.edges := by
  simp [allEdges]

theorem allNodeFeats_snoc (bs : List Blk) (b : Blk) :
    allNodeFeats (bs ++ [b]) = allNodeFeats bs ++ b.feats := by
  simp [allNodeFeats]

theorem length_allEdges (bs : List Blk) : (allEdges bs).length = (bs.map (·.edges.length)).sum := by
  simp [allEdges, List.length_flatMap]

theorem length_allNodeFeats (bs : List Blk) :
    (allNodeFeats bs).length = (bs.map (·.feats.length)).sum := by
  simp [allNodeFeats, List.length_flatMap]

/-- A new node map record starts a new block. -/
theorem WInv.newBlock {C : WeightCodec} {node node' : NodeWriter} {edge : EdgeWriter}
    {pn pe : Option Int} {bs : List Blk} (h : WInv C node edge pn pe bs) {id typ : Int}
    {fs : List (Option Bytes)} (hadd : node.add id typ fs = some node') :
    WInv C node' edge.addNode (some id) none (bs ++ [⟨id, typ, fs, []⟩]) := by
  simp only [NodeWriter.add, packNode, Option.bind_eq_bind, Option.bind_eq_some_iff, packQ_eq_some,
    packI32_eq_some, Option.pure_def, Option.some.injEq] at hadd
  obtain ⟨r, ⟨a, ⟨hid, rfl⟩, b, ⟨hcnt, rfl⟩, c, ⟨htyp, rfl⟩, rfl⟩, hn⟩ := hadd
  subst hn
  have hE : allEdges (bs ++ [⟨id, typ, fs, []⟩]) = allEdges bs := by simp [allEdges]
  have hEF : allEdgeFeats (bs ++ [⟨id, typ, fs, []⟩]) = allEdgeFeats bs := by
    simp [allEdgeFeats, hE]
  constructor
  · simp [List.zipIdx_append, h.nm, h.count, nodeRecBytes]
  · simp [h.count]
  · simp only [NodeFeatureWriter.add, nodeFeature_fold, h.ni, h.nfi, length_flatMap_cU64, length_starts,
      List.length_map, List.map_append, List.map_cons, List.map_nil, starts_snoc,
      List.flatMap_append, length_allNodeFeats]
    simp
  · simp only [NodeFeatureWriter.add, nodeFeature_fold, h.nfi, allNodeFeats_snoc, List.map_append,
      starts_append, List.flatMap_append, h.nfdPos, Nat.zero_add]
  · simp [NodeFeatureWriter.add, nodeFeature_fold, h.nfd, allNodeFeats_snoc]
  · simp [NodeFeatureWriter.add, nodeFeature_fold, h.nfdPos, allNodeFeats_snoc]
  · intro x hx
    simp only [NodeFeatureWriter.add, nodeFeature_fold]
    rcases List.mem_append.1 hx with hx | hx
    · have := h.nfc x hx
      split <;> omega
    · simp only [List.mem_singleton] at hx
      subst hx
      simp only
      split <;> omega
  · simp only [EdgeWriter.addNode, h.nbi, h.ei, List.map_append, List.map_cons, List.map_nil,
      starts_snoc, List.flatMap_append]
    rw [length_flatMap_const _ _ (fun x _ => length_edgeRecBytes C x)]
    simp [edgeRecordSize, length_allEdges]
  · rw [hE]; exact h.ei
  · rw [hEF]; exact h.efiPos
  · rw [hEF]; exact h.efi
  · rw [hEF]; exact h.efd
  · rw [hEF]; exact h.efdPos
  · rw [hE]; exact h.efc
  · rw [hE]; exact h.eti
  · simp
  · simp
  · intro x hx
    rcases List.mem_append.1 hx with hx | hx
    · exact h.idRange x hx
    · simp only [List.mem_singleton] at hx; subst hx; exact hid
  · intro x hx
    rcases List.mem_append.1 hx with hx | hx
    · exact h.typRange x hx
    · simp only [List.mem_singleton] at hx; subst hx; exact htyp
  · rw [hE]; exact h.dstRange
  · rw [hE]; exact h.etypRange
  · intro x hx
    rcases List.mem_append.1 hx with hx | hx
    · exact h.sorted x hx
    · simp only [List.mem_singleton] at hx; subst hx; simp
  · rw [hE]; exact h.times

/-- An edge record is added to the last block. -/
theorem WInv.addEdge {C : WeightCodec} {node : NodeWriter} {edge edge' : EdgeWriter}
    {pn pe : Option Int} {bs : List Blk} {b : Blk} (h : WInv C node edge pn pe (bs ++ [b]))
    (e : GEdge) (hadd : edge.add C e.dst e.typ e.weight e.feats e.created e.removed = some edge')
    (ht0 : 0 ≤ e.typ) (hle : ∀ t, pe = some t → t ≤ e.typ) :
    WInv C node edge' pn (some e.typ) (bs ++ [{ b with edges := b.edges ++ [e] }]) ∧
      edge'.watermark = edge.watermark := by
  simp only [EdgeWriter.add, packEdge, Option.bind_eq_bind, Option.bind_eq_some_iff, packQ_eq_some,
    packI32_eq_some, pure, Option.some.injEq] at hadd
  obtain ⟨r, ⟨a1, ⟨hdst, rfl⟩, a2, ⟨hoff, rfl⟩, a3, ⟨htyp, rfl⟩, rfl⟩, hadd⟩ := hadd
  have hE : allEdges (bs ++ [{ b with edges := b.edges ++ [e] }]) = allEdges (bs ++ [b]) ++ [e] := by
    simp [allEdges]
  have hEF : allEdgeFeats (bs ++ [{ b with edges := b.edges ++ [e] }]) =
      allEdgeFeats (bs ++ [b]) ++ e.feats := by
    simp only [allEdgeFeats, hE]; simp
  have hNF : allNodeFeats (bs ++ [{ b with edges := b.edges ++ [e] }]) = allNodeFeats (bs ++ [b]) := by
    simp [allNodeFeats]
  have hpe : pe = b.edges.getLast?.map (·.typ) := by simpa using h.prevE
  have hpos : edge.efiPos / 8 = ((allEdges (bs ++ [b])).map nfeats).sum := by
    rw [h.efiPos, Nat.mul_div_cancel_left _ (by decide)]
    simp only [allEdgeFeats, List.length_flatMap]; rfl
  have hnbi : (starts 0 ((bs ++ [{ b with edges := b.edges ++ [e] }]).map (fun x : Blk => x.edges.length))) =
      (starts 0 ((bs ++ [b]).map (·.edges.length))) := by
    simp [starts_snoc]
  have hsort : ∀ x ∈ bs ++ [{ b with edges := b.edges ++ [e] }],
      x.edges.Pairwise (fun x y => x.typ ≤ y.typ) := by
    intro x hx
    rcases List.mem_append.1 hx with hx | hx
    · exact h.sorted x (by simp [hx])
    · simp only [List.mem_singleton] at hx; subst hx
      have hb := h.sorted b (by simp)
      simp only
      rw [List.pairwise_append]
      refine ⟨hb, by simp, ?_⟩
      intro y hy z hz
      rw [List.mem_singleton.1 hz]
      rcases List.eq_nil_or_concat b.edges with h0 | ⟨l, z, hl⟩
      · simp [h0] at hy
      · have hz : z.typ ≤ e.typ := hle z.typ (by rw [hpe, hl]; simp)
        rw [hl] at hb hy
        simp only [List.concat_eq_append, List.mem_append, List.mem_singleton] at hb hy
        rcases hy with hy | rfl
        · have := (List.pairwise_append.1 hb).2.2 y hy z (by simp)
          exact Int.le_trans this hz
        · exact hz
  have hlast : ∀ x ∈ bs ++ [{ b with edges := b.edges ++ [e] }], ∃ y ∈ bs ++ [b],
      x.id = y.id ∧ x.typ = y.typ ∧ x.feats = y.feats := by
    intro x hx
    rcases List.mem_append.1 hx with hx | hx
    · exact ⟨x, by simp [hx], rfl, rfl, rfl⟩
    · simp only [List.mem_singleton] at hx; subst hx; exact ⟨b, by simp, rfl, rfl, rfl⟩
  -- the part common to temporal and non-temporal graphs
  have key : ∀ edge'' : EdgeWriter,
      edge''.nbi = edge.nbi →
      edge''.ei = edge.ei ++ edgeRecBytes C (e, edge.efiPos / 8) →
      edge''.fw = (edge.fw.add e.feats).1 → edge''.efiPos = edge.efiPos + (edge.fw.add e.feats).2 →
      edge''.watermark = edge.watermark →
      (edge''.eti = match edge.watermark with
        | none => edge.eti
        | some _ => edge.eti ++ tsBytes e) →
      (edge.watermark ≠ none → (-(2 ^ 63) ≤ e.created ∧ e.created < 2 ^ 63) ∧
        (-(2 ^ 63) ≤ e.removed ∧ e.removed < 2 ^ 63)) →
      WInv C node edge'' pn (some e.typ) (bs ++ [{ b with edges := b.edges ++ [e] }]) := by
    intro edge'' k1 k2 k3 k4 k5 k6 k7
    constructor
    · rw [h.nm]; simp [List.zipIdx_append, nodeRecBytes]
    · rw [h.count]; simp
    · rw [h.ni]; simp
    · rw [hNF]; exact h.nfi
    · rw [hNF]; exact h.nfd
    · rw [hNF]; exact h.nfdPos
    · intro x hx
      obtain ⟨y, hy, -, -, hf⟩ := hlast x hx
      rw [hf]; exact h.nfc y hy
    · rw [k1, hnbi]; exact h.nbi
    · rw [k2, hE, withOffs_append, List.flatMap_append, h.ei, hpos]; simp [withOffs]
    · rw [k4, hEF, h.efiPos]; simp [EdgeFeatureWriter.add]; omega
    · rw [k3, hEF]
      simp only [EdgeFeatureWriter.add, edgeFeature_fold, h.efi, h.efdPos, List.map_append,
        starts_append, List.flatMap_append, Nat.zero_add]
    · rw [k3, hEF]; simp [EdgeFeatureWriter.add, edgeFeature_fold, h.efd]
    · rw [k3, hEF]; simp [EdgeFeatureWriter.add, edgeFeature_fold, h.efdPos]
    · rw [hE, k3]
      intro x hx
      simp only [EdgeFeatureWriter.add, edgeFeature_fold]
      rcases List.mem_append.1 hx with hx | hx
      · have := h.efc x hx
        split <;> omega
      · simp only [List.mem_singleton] at hx; subst hx
        split <;> omega
    · rw [k6, k5, hE, h.eti]
      cases edge.watermark <;> simp
    · rw [h.prevN]; simp
    · simp
    · intro x hx
      obtain ⟨y, hy, hf, -, -⟩ := hlast x hx
      rw [hf]; exact h.idRange y hy
    · intro x hx
      obtain ⟨y, hy, -, hf, -⟩ := hlast x hx
      rw [hf]; exact h.typRange y hy
    · rw [hE]; intro x hx
      rcases List.mem_append.1 hx with hx | hx
      · exact h.dstRange x hx
      · simp only [List.mem_singleton] at hx; subst hx; exact hdst
    · rw [hE]; intro x hx
      rcases List.mem_append.1 hx with hx | hx
      · exact h.etypRange x hx
      · simp only [List.mem_singleton] at hx; subst hx; exact ⟨ht0, htyp.2⟩
    · exact hsort
    · rw [k5, hE]; intro hw x hx
      rcases List.mem_append.1 hx with hx | hx
      · exact h.times hw x hx
      · simp only [List.mem_singleton] at hx; subst hx; exact k7 hw
  cases hw : edge.watermark with
  | none =>
    rw [hw] at hadd
    simp only [Option.some.injEq] at hadd
    subst hadd
    refine ⟨key _ rfl ?_ rfl rfl hw.symm (by simp [hw]) (by simp [hw]), rfl⟩
    simp only [edgeRecBytes, Int.toNat_natCast]
  | some t =>
    rw [hw] at hadd
    simp only [Option.bind_eq_some_iff, packI64_eq_some, Option.some.injEq] at hadd
    obtain ⟨c, ⟨hc, rfl⟩, d, ⟨hd, rfl⟩, rfl⟩ := hadd
    refine ⟨key _ rfl ?_ rfl rfl hw.symm (by simp [hw, tsBytes]) (fun _ => ⟨hc, hd⟩), rfl⟩
    simp only [edgeRecBytes, Int.toNat_natCast]

end DeepGNN
