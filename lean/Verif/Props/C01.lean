import Verif.Proofs.Bytes
import Verif.Model.Graph

/-
C01 Fixed-width binary fields survive conversion.
The writer side is `pack…`/`cU64`, the reader side `rd…`; files are concatenations of records.
-/

namespace DeepGNN

/-- 64-bit offsets and counts. -/
theorem C01_u64_roundtrip (v : Int) (b : Bytes) (h : packQ v = some b) :
    b.length = 8 ∧ (rdU64 b : Int) = v := by
  rw [packQ_eq_some] at h
  obtain ⟨⟨h0, h1⟩, rfl⟩ := h
  refine ⟨by simp, ?_⟩
  rw [rdU64_leBytes (by omega)]; omega

/-- 32-bit types. -/
theorem C01_i32_roundtrip (v : Int) (b : Bytes) (h : packI32 v = some b) :
    b.length = 4 ∧ rdI32 b = v := by
  rw [packI32_eq_some] at h
  obtain ⟨⟨h0, h1⟩, rfl⟩ := h
  exact ⟨by simp, rdI32_leBytes h0 h1⟩

/-- Signed 64-bit timestamps. -/
theorem C01_i64_roundtrip (v : Int) (b : Bytes) (h : packI64 v = some b) :
    b.length = 8 ∧ rdI64 b = v := by
  rw [packI64_eq_some] at h
  obtain ⟨⟨h0, h1⟩, rfl⟩ := h
  exact ⟨by simp, rdI64_leBytes h0 h1⟩

/-- Every value in range is accepted by the packers. -/
theorem C01_pack_total (v : Int) :
    (0 ≤ v ∧ v < 2 ^ 64 → ∃ b, packQ v = some b) ∧
    (-(2 ^ 31) ≤ v ∧ v < 2 ^ 31 → ∃ b, packI32 v = some b) ∧
    (-(2 ^ 63) ≤ v ∧ v < 2 ^ 63 → ∃ b, packI64 v = some b) := by
  refine ⟨fun h => ⟨_, packQ_eq_some.2 ⟨h, rfl⟩⟩, fun h => ⟨_, packI32_eq_some.2 ⟨h, rfl⟩⟩,
    fun h => ⟨_, packI64_eq_some.2 ⟨h, rfl⟩⟩⟩

/-- A value outside its field is rejected, never silently changed. -/
theorem C01_pack_rejects (v : Int) :
    (¬ (0 ≤ v ∧ v < 2 ^ 64) → packQ v = none) ∧
    (¬ (-(2 ^ 31) ≤ v ∧ v < 2 ^ 31) → packI32 v = none) ∧
    (¬ (-(2 ^ 63) ≤ v ∧ v < 2 ^ 63) → packI64 v = none) := by
  refine ⟨fun h => if_neg h, fun h => if_neg h, fun h => if_neg h⟩

/-- Node ids are packed as unsigned and read as signed: they survive below `2^63`.
Missing for the full property: ids in `[2^63, 2^64)`, see `C01_node_id_refuted`. -/
theorem C01_node_id_partial (v : Int) (b : Bytes) (h : packQ v = some b) (hv : v < 2 ^ 63) :
    rdI64 b = v := by
  rw [packQ_eq_some] at h
  obtain ⟨⟨h0, h1⟩, rfl⟩ := h
  exact rdI64_leBytes_nat h0 hv

/-- The converter accepts the node id `2^63`, and the engine reads a negative number. -/
theorem C01_node_id_refuted :
    ∃ v b, packQ v = some b ∧ rdI64 b ≠ v :=
  ⟨2 ^ 63, leBytes 8 (2 ^ 63), by decide +kernel, by decide +kernel⟩

/-- A file of 64-bit offsets is read back as the same sequence. -/
theorem C01_offset_file (vs : List Nat) (h : ∀ v ∈ vs, v < 2 ^ 64) :
    readU64File (vs.flatMap cU64) = vs := by
  rw [readU64File, records_flatMap (by decide) _ _ (by intros; simp), List.map_map]
  conv => rhs; rw [← List.map_id vs]
  exact List.map_congr_left fun x hx => rdU64_cU64 (h x hx)

/-- A node map file of any number of records is read back, by the graph (ids and internal ids) and by
the partition (types), as the same sequence. -/
theorem C01_node_map_file (xs : List (Int × Nat × Int)) (bss : List Bytes)
    (h : xs.mapM packNode = some bss) (hid : ∀ x ∈ xs, x.1 < 2 ^ 63) :
    parseNodeMap bss.flatten = xs.map (fun x => (x.1, x.2.1)) ∧
    readNodeTypes bss.flatten = xs.map (fun x => x.2.2) := by
  induction xs generalizing bss with
  | nil =>
    simp only [List.mapM_nil, Option.pure_def, Option.some.injEq] at h
    subst h
    simp [parseNodeMap, readNodeTypes, records_nil]
  | cons x xs ih =>
    simp only [List.mapM_cons, packNode, Option.bind_eq_bind, Option.bind_eq_some_iff, Option.pure_def,
      Option.some.injEq] at h
    obtain ⟨b, ⟨a1, ha1, a2, ha2, a3, ha3, rfl⟩, bs, hbs, rfl⟩ := h
    obtain ⟨ih1, ih2⟩ := ih bs hbs (fun y hy => hid y (by simp [hy]))
    obtain ⟨l1, -⟩ := C01_u64_roundtrip _ _ ha1
    obtain ⟨l2, r2⟩ := C01_u64_roundtrip _ _ ha2
    obtain ⟨l3, r3⟩ := C01_i32_roundtrip _ _ ha3
    have r1 := C01_node_id_partial _ _ ha1 (hid x (by simp))
    have hrec : records 20 ((a1 ++ a2 ++ a3) :: bs).flatten = (a1 ++ a2 ++ a3) :: records 20 bs.flatten := by
      rw [List.flatten_cons, records_append (by decide) _ _ (by simp [l1, l2, l3])]
    have t1 : (a1 ++ a2 ++ a3).take 8 = a1 := by
      rw [List.append_assoc, List.take_append_of_le_length (by omega), List.take_of_length_le (by omega)]
    have t2 : ((a1 ++ a2 ++ a3).drop 8).take 8 = a2 := by
      rw [List.append_assoc, List.drop_append_of_le_length (by omega), List.drop_of_length_le (by omega),
        List.nil_append, List.take_append_of_le_length (by omega), List.take_of_length_le (by omega)]
    have t3 : ((a1 ++ a2 ++ a3).drop 16).take 4 = a3 := by
      rw [List.drop_append_of_le_length (by simp; omega), List.drop_of_length_le (by simp; omega),
        List.nil_append, List.take_of_length_le (by omega)]
    simp only [parseNodeMap, readNodeTypes] at ih1 ih2 ⊢
    rw [hrec]
    simp only [List.map_cons, ih1, ih2, t1, t2, t3, r1, r3, List.cons.injEq, Prod.mk.injEq, true_and,
      and_true]
    omega

example : ∃ bss, [((5 : Int), (0 : Nat), (3 : Int)), (2 ^ 63 - 1, 1, -1)].mapM packNode = some bss ∧
    parseNodeMap bss.flatten = [(5, 0), (2 ^ 63 - 1, 1)] ∧ readNodeTypes bss.flatten = [3, -1] :=
  ⟨_, rfl, by decide +kernel, by decide +kernel⟩

/-- An edge index file of any number of records is read back as the same sequence (weights: whatever
the weight format can represent). -/
theorem C01_edge_index_file (C : WeightCodec) (es : List EdgeRecord) (bss : List Bytes)
    (h : es.mapM (fun e => packEdge C e.dst e.featOff e.typ e.weight) = some bss)
    (hid : ∀ e ∈ es, e.dst < 2 ^ 63) (hw : ∀ e ∈ es, C.Valid e.weight) :
    (records 24 bss.flatten).map (parseEdge C) = es := by
  induction es generalizing bss with
  | nil =>
    simp only [List.mapM_nil, Option.pure_def, Option.some.injEq] at h
    subst h
    simp [records_nil]
  | cons x xs ih =>
    simp only [List.mapM_cons, packEdge, Option.bind_eq_bind, Option.bind_eq_some_iff, Option.pure_def,
      Option.some.injEq] at h
    obtain ⟨b, ⟨a1, ha1, a2, ha2, a3, ha3, rfl⟩, bs, hbs, rfl⟩ := h
    have ih := ih bs hbs (fun y hy => hid y (by simp [hy])) (fun y hy => hw y (by simp [hy]))
    obtain ⟨l1, -⟩ := C01_u64_roundtrip _ _ ha1
    obtain ⟨l2, r2⟩ := C01_u64_roundtrip _ _ ha2
    obtain ⟨l3, r3⟩ := C01_i32_roundtrip _ _ ha3
    have l4 := C.len x.weight
    have r1 := C01_node_id_partial _ _ ha1 (hid x (by simp))
    have hrec : records 24 ((a1 ++ a2 ++ a3 ++ C.enc x.weight) :: bs).flatten =
        (a1 ++ a2 ++ a3 ++ C.enc x.weight) :: records 24 bs.flatten := by
      rw [List.flatten_cons, records_append (by decide) _ _ (by simp [l1, l2, l3, l4])]
    have t1 : (a1 ++ a2 ++ a3 ++ C.enc x.weight).take 8 = a1 := by
      rw [List.append_assoc, List.append_assoc, List.take_append_of_le_length (by omega),
        List.take_of_length_le (by omega)]
    have t2 : ((a1 ++ a2 ++ a3 ++ C.enc x.weight).drop 8).take 8 = a2 := by
      rw [List.append_assoc, List.append_assoc, List.drop_append_of_le_length (by omega),
        List.drop_of_length_le (by omega),
        List.nil_append, List.take_append_of_le_length (by omega), List.take_of_length_le (by omega)]
    have t3 : ((a1 ++ a2 ++ a3 ++ C.enc x.weight).drop 16).take 4 = a3 := by
      rw [List.append_assoc (a1 ++ a2), List.drop_append_of_le_length (by simp; omega),
        List.drop_of_length_le (by simp; omega),
        List.nil_append, List.take_append_of_le_length (by omega), List.take_of_length_le (by omega)]
    have t4 : (a1 ++ a2 ++ a3 ++ C.enc x.weight).drop 20 = C.enc x.weight := by
      rw [List.drop_append_of_le_length (by simp; omega), List.drop_of_length_le (by simp; omega),
        List.nil_append]
    rw [hrec, List.map_cons, ih]
    refine congrArg (· :: xs) ?_
    have r2' : rdU64 a2 = x.featOff := by omega
    simp only [parseEdge, t1, t2, t3, t4, r1, r2', r3, C.round _ (hw x (by simp))]

example : ∃ bss, [(⟨7, 2, 1, 10⟩ : EdgeRecord), ⟨0, 0, 5, -3⟩].mapM
    (fun e => packEdge intCodec e.dst e.featOff e.typ e.weight) = some bss ∧ bss.flatten.length = 48 :=
  ⟨_, rfl, by decide +kernel⟩

/-- A timestamp file (watermark, then creation and removal of every edge) is read back as the same
sequence. -/
theorem C01_timestamp_file (t : Nat) (xs : List (Int × Int)) (bss : List Bytes)
    (h : xs.mapM (fun x => do return (← packI64 x.1) ++ (← packI64 x.2)) = some bss) :
    readTimestamps (cU64 t ++ bss.flatten) = xs := by
  rw [readTimestamps, records_append (by decide) _ _ (by simp)]
  simp only [List.map_cons, List.drop_succ_cons, List.drop_zero]
  induction xs generalizing bss with
  | nil =>
    simp only [List.mapM_nil, Option.pure_def, Option.some.injEq] at h
    subst h
    simp [records_nil, pairUp]
  | cons x xs ih =>
    simp only [List.mapM_cons, Option.bind_eq_bind, Option.bind_eq_some_iff, Option.pure_def,
      Option.some.injEq] at h
    obtain ⟨b, ⟨a1, ha1, a2, ha2, rfl⟩, bs, hbs, rfl⟩ := h
    have ih := ih bs hbs
    obtain ⟨l1, r1⟩ := C01_i64_roundtrip _ _ ha1
    obtain ⟨l2, r2⟩ := C01_i64_roundtrip _ _ ha2
    rw [List.flatten_cons, List.append_assoc, records_append (by decide) _ _ l1,
      records_append (by decide) _ _ l2]
    simp only [List.map_cons, pairUp, ih, r1, r2]

example : ∃ bss, [((3 : Int), (-1 : Int)), (0, 2 ^ 62)].mapM
    (fun x => do return (← packI64 x.1) ++ (← packI64 x.2)) = some bss ∧
    readTimestamps (cU64 9 ++ bss.flatten) = [(3, -1), (0, 2 ^ 62)] :=
  ⟨_, rfl, by decide +kernel⟩

end DeepGNN
