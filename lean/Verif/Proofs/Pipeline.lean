import Verif.Proofs.GraphLoad
import Verif.Spec.Stream

namespace DeepGNN

theorem mem_effEdges {nc nr : Int} {rs : List Rec} {x : Int × GEdge} (h : x ∈ effEdges nc nr rs) :
    ∃ r ∈ rs, r.dst ≠ -1 ∧ r.src = x.1 ∧ r.dst = x.2.dst ∧ r.weight = x.2.weight := by
  induction rs generalizing nc nr with
  | nil => simp [effEdges] at h
  | cons r rs ih =>
    simp only [effEdges] at h
    split at h
    · obtain ⟨r', hr', h'⟩ := ih h; exact ⟨r', by simp [hr'], h'⟩
    · rename_i hd
      rcases List.mem_cons.1 h with rfl | h
      · exact ⟨r, by simp, hd, rfl, rfl, rfl⟩
      · obtain ⟨r', hr', h'⟩ := ih h; exact ⟨r', by simp [hr'], h'⟩

/-- Which input an item was converted from. -/
structure ItemFrom (calls : List (List Rec)) (it : Item) : Prop where
  ids : it.blks.map (·.id) = blockIds none calls.flatten
  edges : it.blks.flatMap (fun b => b.edges.map (fun e => (b.id, e))) = calls.flatMap (effEdges 0 (-1))
  nodes : (it.blks.filter (fun b => b.typ ≠ -1)).map (fun b => (b.id, b.typ, b.feats)) =
    nodeRecs calls.flatten
  noFeats : ∀ b ∈ it.blks, b.typ = -1 → b.feats = []
  typ0 : ∀ b ∈ it.blks, -1 ≤ b.typ
  hasEdge : ∀ b ∈ it.blks, b.typ = -1 → b.edges ≠ []
  etyp : ∀ b ∈ it.blks, ∀ e ∈ b.edges, 0 ≤ e.typ
  sorted : ∀ b ∈ it.blks, b.edges.Pairwise (fun x y => x.typ ≤ y.typ)
  nfc : ∀ b ∈ it.blks, b.feats.length ≤ it.files.nodeFeatureCount
  efc : ∀ b ∈ it.blks, ∀ e ∈ b.edges, e.feats.length ≤ it.files.edgeFeatureCount

theorem convertPartition_item {C : WeightCodec} {wm : Option Nat} {calls : List (List Rec)}
    {f : PartitionFiles} (hc : convertPartition C wm calls = some f) (hfit : FilesFit f)
    (hok : ∀ r ∈ calls.flatten, RecOk C r) (m : Meta) (hm : 0 ≤ m.watermark → wm ≠ none) :
    ∃ it : Item, it.files = f ∧ ItemOk C m it ∧ ItemFrom calls it := by
  simp only [convertPartition, Option.bind_eq_bind, Option.bind_eq_some_iff] at hc
  obtain ⟨w, hw, hc⟩ := hc
  obtain ⟨hwm, bs, hws⟩ := writeCalls_ws calls hw
  have hS := hws.2.1
  -- every block comes from a record
  have hid : ∀ b ∈ bs, b.id < 2 ^ 63 := by
    intro b hb
    by_cases ht : b.typ = -1
    · -- blocks of type -1 hold at least one edge
      obtain ⟨e, he⟩ := List.exists_mem_of_ne_nil _ (hws.2.2 b hb ht)
      have : (b.id, e) ∈ calls.flatMap (effEdges 0 (-1)) := by
        rw [← hS.edges]; exact List.mem_flatMap.2 ⟨b, hb, List.mem_map.2 ⟨e, he, rfl⟩⟩
      obtain ⟨c, hcm, hx⟩ := List.mem_flatMap.1 this
      obtain ⟨r, hr, -, h1, -⟩ := mem_effEdges hx
      have := (hok r (List.mem_flatten.2 ⟨c, hcm, hr⟩)).src
      rw [h1] at this; exact this
    · have : (b.id, b.typ, b.feats) ∈ nodeRecs calls.flatten := by
        rw [← hS.nodes]
        exact List.mem_map.2 ⟨b, List.mem_filter.2 ⟨hb, by simpa using ht⟩, rfl⟩
      simp only [nodeRecs] at this
      obtain ⟨r, hr, h1⟩ := List.mem_map.1 this
      have hr' := (List.mem_filter.1 hr).1
      have := (hok r hr').src
      obtain ⟨h2, -⟩ := Prod.mk.injEq .. ▸ h1
      rw [h2] at this; exact this
  have hedge : ∀ e ∈ allEdges bs, e.dst < 2 ^ 63 ∧ C.Valid e.weight := by
    intro e he
    obtain ⟨b, hb, he⟩ := List.mem_flatMap.1 he
    have : (b.id, e) ∈ calls.flatMap (effEdges 0 (-1)) := by
      rw [← hS.edges]; exact List.mem_flatMap.2 ⟨b, hb, List.mem_map.2 ⟨e, he, rfl⟩⟩
    obtain ⟨c, hcm, hx⟩ := List.mem_flatMap.1 this
    obtain ⟨r, hr, hd, -, h1, h2⟩ := mem_effEdges hx
    have hr := hok r (List.mem_flatten.2 ⟨c, hcm, hr⟩)
    exact ⟨by rw [← h1]; exact hr.dst, by rw [← h2]; exact hr.weight hd⟩
  obtain ⟨h1, p, h2, h3⟩ := load_close hws hc hfit
    ⟨hid, fun e he => (hedge e he).1, fun e he => (hedge e he).2⟩ m (by rw [hwm]; exact hm)
  have hcount : f.nodeFeatureCount = w.node.fw.featureCount ∧
      f.edgeFeatureCount = w.edge.fw.featureCount := by
    simp only [BinaryWriter.close, Option.bind_eq_bind, Option.bind_eq_some_iff, Option.pure_def,
      Option.some.injEq] at hc
    obtain ⟨e, -, rfl⟩ := hc
    exact ⟨rfl, rfl⟩
  refine ⟨⟨f, p, bs⟩, rfl, ⟨h2, h1, h3⟩, hS.ids, hS.edges, hS.nodes, hS.noFeats, hS.typ0, hws.2.2, ?_, hws.1.sorted, ?_, ?_⟩
  · intro b hb e he; exact (hws.1.etypRange e (List.mem_flatMap.2 ⟨b, hb, he⟩)).1
  · intro b hb; simp only [hcount.1]; exact hws.1.nfc b hb
  · intro b hb e he; simp only [hcount.2]; exact hws.1.efc e (List.mem_flatMap.2 ⟨b, hb, he⟩)

inductive All2 {α β} (R : α → β → Prop) : List α → List β → Prop
  | nil : All2 R [] []
  | cons {a b as bs} : R a b → All2 R as bs → All2 R (a :: as) (b :: bs)

/-- The whole conversion and load. -/
theorem pipeline {C : WeightCodec} {wm : Option Nat} {parts : List (List (List Rec))}
    {fs : List PartitionFiles} (hc : parts.mapM (convertPartition C wm) = some fs)
    (hfit : ∀ f ∈ fs, FilesFit f) (hok : ∀ r ∈ Spec.allRecords parts, RecOk C r)
    (m : Meta) (hm : 0 ≤ m.watermark → wm ≠ none) :
    ∃ items : List Item, items.map (·.files) = fs ∧ (∀ it ∈ items, ItemOk C m it) ∧
      All2 ItemFrom parts items := by
  induction parts generalizing fs with
  | nil =>
    simp only [List.mapM_nil, Option.pure_def, Option.some.injEq] at hc
    subst hc
    exact ⟨[], rfl, by simp, .nil⟩
  | cons c cs ih =>
    simp only [List.mapM_cons, Option.bind_eq_bind, Option.bind_eq_some_iff, Option.pure_def,
      Option.some.injEq] at hc
    obtain ⟨f, hf, fs', hfs, rfl⟩ := hc
    obtain ⟨items, h1, h2, h3⟩ := ih hfs (fun f hf => hfit f (by simp [hf]))
      (fun r hr => hok r (by simp only [Spec.allRecords] at hr ⊢; simp [hr]))
    obtain ⟨it, i1, i2, i3⟩ := convertPartition_item hf (hfit f (by simp))
      (fun r hr => hok r (by simp only [Spec.allRecords] ; simp [hr])) m hm
    refine ⟨it :: items, by simp [i1, h1], ?_, .cons i3 h3⟩
    intro x hx
    rcases List.mem_cons.1 hx with rfl | hx
    · exact i2
    · exact h2 x hx

end DeepGNN
