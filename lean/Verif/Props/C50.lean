import Verif.Proofs.EdgeList

/-
C50: edge list lines decode to the records they describe.
-/

namespace DeepGNN

open EdgeList Spec

variable {V : Type}

namespace EdgeList

theorem decodeRest_ok {cfg : Config V} {P : Parse V} {sh : Str → V → Str} {showWeight : V → Str} {r : Described V}
    (hc : DelimitersOk cfg) (hr : r.Ok cfg P sh showWeight) {side : Side V}
    (hs : side = if r.dst = -1 then cfg.node else cfg.edge) :
    decodeRest cfg P side r.src r.dst r.typ
      ((Spec.optional side.weight (showWeight r.weight) ++ timeFields cfg cfg.created r.created ++
        timeFields cfg cfg.removed r.removed ++ featuresFields cfg sh side.features r.features).flatMap (split cfg.delimiter)) =
    some ⟨r.src, r.dst, r.typ, r.weight, r.created, r.removed, r.features.map (·.value)⟩ := by
  have hw := hr.weight
  have ha := hr.agree
  rw [← hs] at hw ha
  rw [decodeRest]
  simp only [List.flatMap_append, List.append_assoc]
  rw [field_optional hr.weightText.1 hw hr.weightText.2, Option.bind_some]
  simp only
  rw [timeField_ok hc hr.created, Option.bind_some]
  simp only
  rw [timeField_ok hc hr.removed, Option.bind_some]
  simp only
  rw [features_ok hc r.features side.features _ hr.features ha, Option.map_some]
  have h1 := features_length (cfg := cfg) (sh := sh) r.features side.features
  have h2 := flatMap_split_length cfg.delimiter (featuresFields cfg sh side.features r.features)
  omega

theorem intText_ne_nil (n : Int) : intText n ≠ [] := by
  rw [intText]
  split
  · simp
  · exact Nat.toDigits_ne_nil

theorem join_ne_nil (d : Char) (n : Int) (ts : List Str) : joinFields d (intText n :: ts) ≠ [] := by
  cases ts with
  | nil => exact intText_ne_nil n
  | cons t ts =>
    rw [joinFields]
    · simp
    · simp

theorem unescape_even (d e : Char) : ∀ (ts : List Str) (out : Str), trailing e (unescape d e out ts).1 % 2 = 0
  | [], out => by
    rw [unescape]
    split
    · rename_i h
      rw [removePairs_last] at h
      rcases List.eq_nil_or_concat out with rfl | ⟨s, c, rfl⟩
      · rfl
      · rw [List.concat_eq_append] at *
        by_cases hc : c = e
        · subst hc
          rw [trailing_snoc] at h
          simp only [List.dropLast_concat]
          omega
        · rw [trailing_ne hc] at h; omega
    · rename_i h
      rw [removePairs_last] at h
      simp only
      omega
  | t :: ts, out => by
    rw [unescape]
    split
    · exact unescape_even d e ts _
    · rename_i h
      rw [removePairs_last] at h
      simp only
      omega

theorem getFeature_even {cfg : Config V} {P : Parse V} {key : Str} {ls : List Nat} {ts ts' : List Str} {s : Str}
    (h : getFeature cfg P key ls ts = some (.text s, ts')) : trailing cfg.escape s % 2 = 0 := by
  unfold getFeature at h
  split at h
  · cases h
  · simp at h
  · split at h
    · split at h
      · cases h
      · simp only [Option.some.injEq, Prod.mk.injEq, Feature.text.injEq] at h
        rw [← h.1]
        exact unescape_even _ _ _ _
    · simp only [Option.bind_eq_some_iff, Option.map_eq_some_iff] at h
      obtain ⟨_, _, _, _, h⟩ := h
      simp at h
  · simp only [Option.bind_eq_some_iff, Option.map_eq_some_iff] at h
    obtain ⟨_, _, _, _, _, _, _, _, h⟩ := h
    simp at h
  · cases h

theorem featureLoop_even {cfg : Config V} {P : Parse V} : ∀ (fuel : Nat) (ds : List (Option Str × Option (List Nat))) (ts : List Str)
    (fs : List (Feature V)), featureLoop cfg P fuel ds ts = some fs → ∀ s, Feature.text s ∈ fs → trailing cfg.escape s % 2 = 0
  | 0, _, _, _, h, _, _ => by cases h
  | fuel + 1, ds, ts, fs, h, s, hs => by
    have key : ∀ (k : Str) (ts : List Str), ((field (ds.head?.getD (none, none)).2 (parseLengths cfg.lengthDelimiter) ts).bind fun l =>
        (getFeature cfg P k l.1 l.2).bind fun f => (featureLoop cfg P fuel ds.tail f.2).map fun fs => f.1 :: fs) = some fs →
        trailing cfg.escape s % 2 = 0 := by
      intro k ts h
      simp only [Option.bind_eq_some_iff, Option.map_eq_some_iff] at h
      obtain ⟨l, _, ⟨f, ts'⟩, hf, gs, hg, rfl⟩ := h
      rcases List.mem_cons.1 hs with hs | hs
      · exact getFeature_even (by rw [hf, hs])
      · exact featureLoop_even fuel _ _ gs hg s hs
    rw [featureLoop.eq_def] at h
    simp only at h
    split at h
    · exact key _ _ h
    · split at h
      · cases h; simp at hs
      · split at h
        · cases h; simp at hs
        · exact key _ _ h

theorem decodeRest_even {cfg : Config V} {P : Parse V} {side : Side V} {a b c : Int} {ts : List Str} {r : Record V}
    (h : decodeRest cfg P side a b c ts = some r) : ∀ s, Feature.text s ∈ r.features → trailing cfg.escape s % 2 = 0 := by
  simp only [decodeRest, Option.bind_eq_some_iff, Option.map_eq_some_iff] at h
  obtain ⟨_, _, _, _, _, _, fs, hf, rfl⟩ := h
  exact featureLoop_even _ _ _ fs hf

end EdgeList

/-- C50 (partial: escapes in texts must not be ambiguous, and an edge written with its type must not have type -1): the line written for
a node or an edge with any number of features decodes to exactly the ids, type, weight, timestamps and features written, whatever fields
are given by defaults. -/
theorem C50_decode_partial {cfg : Config V} {P : Parse V} {sh : Str → V → Str} {showWeight : V → Str} {r : Described V}
    (hc : DelimitersOk cfg) (hr : r.Ok cfg P sh showWeight) :
    decode cfg P (joinFields cfg.delimiter (recordFields cfg sh showWeight r)) =
      some [⟨r.src, r.dst, r.typ, r.weight, r.created, r.removed, r.features.map (·.value)⟩] := by
  have hclean : ∀ n : Int, cfg.delimiter ∉ intText n := not_mem_intText ⟨hc.number.1, hc.number.2.1⟩
  have hint : ∀ (n : Int) (ts : List Str), field none parseInt (split cfg.delimiter (intText n) ++ ts) = some (n, ts) := by
    intro n ts
    rw [split_clean (hclean n), List.cons_append, field]
    rw [parseInt_intText]
    rfl
  rw [decode]
  by_cases hd : r.dst = -1
  · have hrest := decodeRest_ok hc hr (side := cfg.node) (by rw [if_pos hd])
    have hfields : recordFields cfg sh showWeight r = intText r.src :: (intText (-1) :: (Spec.optional cfg.node.typ (intText r.typ) ++
        (Spec.optional cfg.node.weight (showWeight r.weight) ++ timeFields cfg cfg.created r.created ++
        timeFields cfg cfg.removed r.removed ++ featuresFields cfg sh cfg.node.features r.features))) := by
      rw [recordFields, if_pos hd, if_pos hd]
      rfl
    rw [hfields, if_neg (join_ne_nil _ _ _), split_join _ (by simp), List.flatMap_cons, hint, Option.bind_some]
    simp only
    rw [List.flatMap_cons, hint, Option.bind_some]
    simp only
    rw [if_pos trivial, List.flatMap_append, field_optional (parseInt_intText r.typ) (hr.node hd) (hclean _), Option.bind_some]
    simp only
    rw [hd] at hrest
    rw [hrest, Option.map_some, hd]
  · have hrest := decodeRest_ok hc hr (side := cfg.edge) (by rw [if_neg hd])
    cases ht : cfg.edge.typ with
    | some t =>
      have hfields : recordFields cfg sh showWeight r = intText r.src :: (intText r.dst ::
          (Spec.optional cfg.edge.weight (showWeight r.weight) ++ timeFields cfg cfg.created r.created ++
          timeFields cfg cfg.removed r.removed ++ featuresFields cfg sh cfg.edge.features r.features)) := by
        rw [recordFields, if_neg hd, if_neg hd, ht]
        rfl
      rw [hfields, if_neg (join_ne_nil _ _ _), split_join _ (by simp), List.flatMap_cons, hint, Option.bind_some]
      simp only
      rw [List.flatMap_cons, hint, Option.bind_some]
      simp only
      rw [if_neg hd, ← hr.edge hd t ht, hrest]
      rfl
    | none =>
      have hfields : recordFields cfg sh showWeight r = intText r.src :: (intText r.typ :: (intText r.dst ::
          (Spec.optional cfg.edge.weight (showWeight r.weight) ++ timeFields cfg cfg.created r.created ++
          timeFields cfg cfg.removed r.removed ++ featuresFields cfg sh cfg.edge.features r.features))) := by
        rw [recordFields, if_neg hd, if_neg hd, ht]
        rfl
      rw [hfields, if_neg (join_ne_nil _ _ _), split_join _ (by simp), List.flatMap_cons, hint, Option.bind_some]
      simp only
      rw [List.flatMap_cons, hint, Option.bind_some]
      simp only
      rw [if_neg (hr.notNode hd ht), List.flatMap_cons, hint, Option.bind_some]
      simp only
      rw [hrest]
      rfl

namespace EdgeList

/-- Values are integers here. -/
def exParse : Parse Int := ⟨parseInt, fun _ => parseInt⟩

def exConfig : Config Int := ⟨⟨none, none, []⟩, ⟨none, none, []⟩, ',', '/', '\\', none, none, true⟩

def exDefaults : Config Int :=
  ⟨⟨some 1, some 5, [(some "int32".toList, some [3]), (some "int8".toList, none)]⟩, ⟨some 0, none, [(none, some [3, 0])]⟩,
    ';', '/', '\\', none, some 9, true⟩

def exNode : Described Int :=
  ⟨12, -1, 1, 5, some 3, some 9,
    [.dense "int32".toList [1, -2, 3], .missing "int8".toList, .text "a;b\\c;".toList, .sparse "int64".toList 2 [0, 1, 2, 3] [7, 8]]⟩

def exEdge : Described Int := ⟨12, 4, 0, 5, some 3, some 9, [.sparse "uint8".toList 0 [0, 4, 10] [1, 1, 1], .dense "int8".toList [4]]⟩

theorem exDefaults_ok : DelimitersOk exDefaults := ⟨by decide, by decide, by decide⟩

theorem escapesOk_of_check {d e : Char} {s : Str}
    (h : (trailing e s % 2 = 0) ∧ ∀ i ∈ List.range s.length, s[i]? = some d → trailing e (s.take i) % 2 = 0) : EscapesOk d e s := by
  refine ⟨h.1, ?_⟩
  intro p q hp
  have h1 := h.2 p.length (by rw [List.mem_range, hp, List.length_append, List.length_cons]; omega) (by rw [hp]; simp)
  rwa [hp, List.take_left] at h1

end EdgeList

namespace EdgeList

theorem exNode_ok : exNode.Ok exDefaults exParse (fun _ => intText) intText := by
  · constructor
    · intro _ t ht; cases ht; rfl
    · intro h; exact absurd rfl h
    · intro h; exact absurd rfl h
    · intro w hw; cases hw; rfl
    · decide +kernel
    · exact ⟨3, rfl, by intro d hd; cases hd⟩
    · exact ⟨9, rfl, by intro d hd; cases hd; rfl⟩
    · intro f hf
      simp only [exNode, List.mem_cons, List.not_mem_nil, or_false] at hf
      rcases hf with rfl | rfl | rfl | rfl
      · exact ⟨by decide +kernel, by decide +kernel, by decide +kernel, by decide +kernel, by decide +kernel, by decide +kernel⟩
      · exact ⟨by decide +kernel, by decide +kernel, by decide +kernel, trivial⟩
      · exact ⟨by decide +kernel, by decide +kernel, by decide +kernel, escapesOk_of_check (by decide +kernel)⟩
      · exact ⟨by decide +kernel, by decide +kernel, by decide +kernel, by decide +kernel, by decide +kernel, by decide +kernel⟩
    · refine ⟨⟨?_, ?_⟩, ⟨?_, ?_⟩, ⟨?_, ?_⟩, ⟨?_, ?_⟩, rfl⟩ <;> (intro k hk; cases hk) <;> rfl

theorem exEdge_ok : exEdge.Ok exDefaults exParse (fun _ => intText) intText := by
  · constructor
    · intro h; exact absurd h (by decide)
    · intro _ t ht; cases ht; rfl
    · intro _ h; cases h
    · intro w hw; cases hw
    · decide +kernel
    · exact ⟨3, rfl, by intro d hd; cases hd⟩
    · exact ⟨9, rfl, by intro d hd; cases hd; rfl⟩
    · intro f hf
      simp only [exEdge, List.mem_cons, List.not_mem_nil, or_false] at hf
      rcases hf with rfl | rfl
      · exact ⟨by decide +kernel, by decide +kernel, by decide +kernel, by decide +kernel, by decide +kernel, by decide +kernel⟩
      · exact ⟨by decide +kernel, by decide +kernel, by decide +kernel, by decide +kernel, by decide +kernel, by decide +kernel⟩
    · refine ⟨⟨?_, ?_⟩, ⟨?_, ?_⟩, rfl⟩ <;> (intro k hk; cases hk) <;> rfl

end EdgeList

/-- Non-trivial records meet the hypotheses, and this is the text of one of them. -/
example : DelimitersOk exDefaults ∧ exNode.Ok exDefaults exParse (fun _ => intText) intText ∧
    exEdge.Ok exDefaults exParse (fun _ => intText) intText ∧
    joinFields ';' (recordFields exDefaults (fun _ => intText) intText exNode) =
      "12;-1;3;1;-2;3;0;binary;1;a\\;b\\c\\;;int64;2/2;0;1;2;3;7;8".toList :=
  ⟨exDefaults_ok, exNode_ok, exEdge_ok, by decide +kernel⟩

/-- The full claim fails: no line at all can give a node or an edge a text that ends with one escape character (a Windows directory, say),
whatever is written: escapes at the end of a decoded text always come in pairs. -/
theorem C50_escape_refuted (cfg : Config V) (P : Parse V) (line : Str) (r : Record V) (h : decode cfg P line = some [r]) (s : Str)
    (hs : Feature.text s ∈ r.features) : trailing cfg.escape s % 2 = 0 := by
  unfold decode at h
  split at h
  · cases h
  · simp only [Option.bind_eq_some_iff, Option.map_eq_some_iff] at h
    obtain ⟨_, _, _, _, r', h, hr⟩ := h
    cases hr
    split at h
    · obtain ⟨_, _, h⟩ := Option.bind_eq_some_iff.1 h
      exact decodeRest_even h s hs
    · split at h
      · exact decodeRest_even h s hs
      · obtain ⟨_, _, h⟩ := Option.bind_eq_some_iff.1 h
        exact decodeRest_even h s hs

/-- For example `C:\` written as a feature swallows the field after it, and the line is refused or changes meaning. -/
example : decode exConfig exParse "5,-1,0,1,2,3,binary,1,C:\\,binary,1,b".toList = none ∧
    decode exConfig exParse "5,-1,0,1,2,3,binary,1,C:\\,int32,1,7".toList = none ∧
    decode exConfig exParse "5,-1,0,1,2,3,binary,1,C:\\,int32".toList =
      some [⟨5, -1, 0, 1, some 2, some 3, [.text "C:,int32".toList]⟩] ∧ trailing '\\' "C:\\".toList = 1 := by
  decide +kernel

/-- An edge `5 → 7` of type -1 is decoded as a node of type 7. -/
theorem C50_edge_type_refuted : ∃ (cfg : Config Int) (r : Described Int), DelimitersOk cfg ∧ r.dst ≠ -1 ∧ r.src ≠ -1 ∧ r.features = [] ∧
    ∃ r', decode cfg exParse (joinFields cfg.delimiter (recordFields cfg (fun _ => intText) intText r)) = some [r'] ∧
      (r'.src = r.src ∧ r'.dst = -1 ∧ r'.typ = r.dst) :=
  ⟨exConfig, ⟨5, 7, -1, 1, some 2, some 3, []⟩, ⟨by decide, by decide, by decide⟩, by decide, by decide, rfl,
    ⟨5, -1, 7, 1, some 2, some 3, []⟩, by decide +kernel, by decide⟩

end DeepGNN
