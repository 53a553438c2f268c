import Verif.Spec.EdgeList

namespace DeepGNN.EdgeList

open Spec

theorem parseDigits_toDigits (n : Nat) : parseDigits (Nat.toDigits 10 n) = some n := by
  have h : (Nat.toDigits 10 n).all Char.isDigit = true := by
    rw [List.all_eq_true]
    intro c hc
    exact Nat.isDigit_of_mem_toDigits (by decide) (by decide) hc
  rw [parseDigits, if_pos ⟨Nat.toDigits_ne_nil, h⟩, Nat.ofDigitChars_ten_toDigits]

theorem parseInt_intText (n : Int) : parseInt (intText n) = some n := by
  rw [intText]
  split
  · rw [parseInt, parseDigits_toDigits]
    show some (-((n.natAbs : Nat) : Int)) = some n
    congr 1; omega
  · unfold parseInt
    split
    · rename_i s h
      have : '-' ∈ Nat.toDigits 10 n.toNat := by rw [h]; exact List.mem_cons_self
      have := Nat.isDigit_of_mem_toDigits (by decide) (by decide) this
      exact absurd this (by decide)
    · rw [parseDigits_toDigits]
      show some ((n.toNat : Nat) : Int) = some n
      congr 1; omega

theorem mem_intText {n : Int} {c : Char} (h : c ∈ intText n) : c.isDigit = true ∨ c = '-' := by
  rw [intText] at h
  split at h
  · rcases List.mem_cons.1 h with h | h
    · exact Or.inr h
    · exact Or.inl (Nat.isDigit_of_mem_toDigits (by decide) (by decide) h)
  · exact Or.inl (Nat.isDigit_of_mem_toDigits (by decide) (by decide) h)

theorem not_mem_intText {d : Char} (h : d.isDigit = false ∧ d ≠ '-') (n : Int) : d ∉ intText n := by
  intro hd
  rcases mem_intText hd with h1 | h1
  · rw [h.1] at h1; exact absurd h1 (by decide)
  · exact h.2 h1

theorem split_ne_nil (d : Char) : ∀ s, split d s ≠ []
  | [] => by simp [split]
  | c :: cs => by
    rw [split]
    split
    · simp
    · split <;> simp

theorem split_clean {d : Char} : ∀ {s : Str}, d ∉ s → split d s = [s]
  | [], _ => rfl
  | c :: cs, h => by
    have h1 : d ∉ cs := fun hc => h (List.mem_cons_of_mem _ hc)
    have h2 : c ≠ d := fun e => h (e ▸ List.mem_cons_self)
    rw [split, if_neg h2, split_clean h1]

theorem split_append (d : Char) : ∀ a b : Str, split d (a ++ d :: b) = split d a ++ split d b
  | [], b => by simp [split]
  | c :: cs, b => by
    rw [List.cons_append, split, split_append d cs b]
    rw [split]
    split
    · rfl
    · cases e : split d cs with
      | nil => exact absurd e (split_ne_nil d cs)
      | cons t ts => rfl

theorem split_join (d : Char) : ∀ {ts : List Str}, ts ≠ [] → split d (joinFields d ts) = ts.flatMap (split d)
  | [], h => absurd rfl h
  | [t], _ => by simp [joinFields]
  | t :: u :: ts, _ => by
    rw [joinFields]
    · rw [split_append, split_join d (by simp)]; rfl
    · simp

theorem flatMap_clean {d : Char} : ∀ {ts : List Str}, (∀ t ∈ ts, d ∉ t) → ts.flatMap (split d) = ts
  | [], _ => rfl
  | t :: ts, h => by
    rw [List.flatMap_cons, split_clean (h t List.mem_cons_self), flatMap_clean fun u hu => h u (List.mem_cons_of_mem _ hu)]
    rfl

theorem trailing_snoc (e : Char) (s : Str) : trailing e (s ++ [e]) = trailing e s + 1 := by
  simp [trailing]

theorem trailing_ne {e c : Char} (h : c ≠ e) (s : Str) : trailing e (s ++ [c]) = 0 := by
  simp [trailing, h]

theorem trailing_cons {e c : Char} (h : c ≠ e) (s : Str) : trailing e (c :: s) = trailing e s := by
  rw [trailing, trailing, List.reverse_cons, List.takeWhile_append]
  split
  · rename_i h1
    rw [h1]
    simp [h]
  · rfl

theorem trailing_le (e : Char) (s : Str) : trailing e s ≤ s.length := by
  rw [trailing]
  have := (List.takeWhile_prefix (p := fun x => decide (x = e)) (l := s.reverse)).length_le
  rw [List.length_reverse] at this
  exact this

theorem trailing_all {e : Char} {s : Str} (h : trailing e s = s.length) : ∀ c ∈ s, c = e := by
  intro c hc
  rw [trailing] at h
  have h1 := (List.takeWhile_prefix (p := fun x => decide (x = e)) (l := s.reverse)).eq_of_length (by rw [h, List.length_reverse])
  have h2 : c ∈ s.reverse.takeWhile (fun x => decide (x = e)) := by rw [h1]; simpa using hc
  have h3 := List.all_takeWhile (p := fun x => decide (x = e)) (l := s.reverse)
  rw [List.all_eq_true] at h3
  simpa using h3 c h2

theorem trailing_cons_self (e : Char) (s : Str) : trailing e (e :: s) = if trailing e s = s.length then s.length + 1 else trailing e s := by
  rw [trailing, trailing, List.reverse_cons, List.takeWhile_append, List.length_reverse]
  split <;> simp

/-- The pairs leave an escape at the end exactly for an odd number of escapes there. -/
theorem removePairs_last (e : Char) : ∀ s : Str, (removePairs e s).getLast? = some e ↔ trailing e s % 2 = 1
  | [] => by simp [removePairs, trailing]
  | [a] => by
    by_cases h : a = e <;> simp [removePairs, trailing, h]
  | a :: b :: r => by
    rw [removePairs]
    by_cases h : a = e ∧ b = e
    · rw [if_pos h, removePairs_last e r, h.1, h.2, trailing_cons_self, trailing_cons_self]
      have := trailing_le e r
      simp only [List.length_cons]
      split <;> split <;> omega
    · rw [if_neg h]
      have ih := removePairs_last e (b :: r)
      have hne : removePairs e (b :: r) ≠ [] ∨ (∀ c ∈ b :: r, c = e) ∧ (b :: r).length % 2 = 0 := by
        exact removePairs_nil e (b :: r)
      have hcons : trailing e (a :: b :: r) % 2 = trailing e (b :: r) % 2 := by
        by_cases ha : a = e
        · rw [ha, trailing_cons_self, if_neg]
          intro hx
          exact h ⟨ha, trailing_all hx b List.mem_cons_self⟩
        · rw [trailing_cons ha]
      rw [hcons, ← ih]
      cases hx : removePairs e (b :: r) with
      | nil =>
        rw [hx] at hne
        rcases hne with hne | hne
        · exact absurd rfl hne
        · have hb := hne.1 b List.mem_cons_self
          have ha : a ≠ e := fun ha => h ⟨ha, hb⟩
          simp [ha]
      | cons c cs => rw [List.getLast?_cons_cons]
where
  removePairs_nil (e : Char) : ∀ s : Str, removePairs e s ≠ [] ∨ (∀ c ∈ s, c = e) ∧ s.length % 2 = 0
    | [] => Or.inr ⟨by simp, rfl⟩
    | [a] => Or.inl (by simp [removePairs])
    | a :: b :: r => by
      rw [removePairs]
      split
      · rename_i h
        rcases removePairs_nil e r with h1 | ⟨h1, h2⟩
        · exact Or.inl h1
        · refine Or.inr ⟨?_, by simp only [List.length_cons]; omega⟩
          intro c hc
          simp only [List.mem_cons] at hc
          rcases hc with rfl | rfl | hc
          · exact h.1
          · exact h.2
          · exact h1 c hc
      · exact Or.inl (by simp)

theorem unescape_clean {d e : Char} {out : Str} (h : trailing e out % 2 = 0) (ts : List Str) :
    unescape d e out ts = (out, ts) := by
  have : ¬ (removePairs e out).getLast? = some e := by
    rw [removePairs_last]; omega
  cases ts with
  | nil => rw [unescape, if_neg this]
  | cons t ts => rw [unescape, if_neg this]

theorem unescape_more {d e : Char} {out : Str} (h : trailing e out % 2 = 0) (t : Str) (ts : List Str) :
    unescape d e (out ++ [e]) (t :: ts) = unescape d e (out ++ d :: t) ts := by
  rw [unescape, if_pos (by rw [removePairs_last, trailing_snoc]; omega), List.dropLast_concat]

/-- Pieces of an escaped text. -/
theorem unescape_text {d e : Char} (hde : d ≠ e) (rest : List Str) : ∀ (s p : Str), d ∉ p → ∀ acc : Str,
    EscapesOk d e (acc ++ p ++ s) →
    ∃ t ts, split d (p ++ escapeText d e s) = t :: ts ∧ unescape d e (acc ++ t) (ts ++ rest) = (acc ++ p ++ s, rest)
  | [], p, hd, acc, hs => by
    refine ⟨p, [], ?_, ?_⟩
    · rw [escapeText, List.flatMap_nil, List.append_nil, split_clean hd]
    · rw [List.append_nil] at hs
      rw [List.nil_append, List.append_nil, unescape_clean hs.1]
  | c :: s, p, hd, acc, hs => by
    by_cases hcd : c = d
    · subst hcd
      obtain ⟨t, ts, h1, h2⟩ := unescape_text hde rest s [] (by simp) (acc ++ p ++ [c]) (by
        rw [List.append_nil, List.append_assoc (acc ++ p), List.singleton_append]; exact hs)
      refine ⟨p ++ [e], t :: ts, ?_, ?_⟩
      · have : p ++ escapeText c e (c :: s) = (p ++ [e]) ++ c :: escapeText c e s := by
          simp [escapeText]
        rw [this, split_append, ← List.nil_append (escapeText c e s), h1, split_clean]
        · rfl
        · intro h; rcases List.mem_append.1 h with h | h
          · exact hd h
          · exact hde (List.mem_singleton.1 h)
      · rw [← List.append_assoc, List.cons_append, unescape_more (hs.2 _ _ rfl)]
        rw [show acc ++ p ++ c :: t = acc ++ p ++ [c] ++ t by simp, h2]
        simp
    · obtain ⟨t, ts, h1, h2⟩ := unescape_text hde rest s (p ++ [c]) (by
        intro h; rcases List.mem_append.1 h with h | h
        · exact hd h
        · exact hcd (List.mem_singleton.1 h).symm) acc (by
        rw [← List.append_assoc acc, List.append_assoc (acc ++ p), List.singleton_append]; exact hs)
      refine ⟨t, ts, ?_, ?_⟩
      · rw [← h1]; simp [escapeText, hcd]
      · rw [h2]; simp

variable {V : Type} {cfg : Config V} {P : Parse V} {sh : Str → V → Str}

theorem mapM_show {k : Str} : ∀ {vs : List V}, (∀ v ∈ vs, P.value k (sh k v) = some v) → (vs.map (sh k)).mapM (P.value k) = some vs
  | [], _ => rfl
  | v :: vs, h => by
    rw [List.map_cons, List.mapM_cons, h v List.mem_cons_self, mapM_show fun u hu => h u (List.mem_cons_of_mem _ hu)]
    rfl

theorem mapM_ints : ∀ cs : List Int, (cs.map intText).mapM parseInt = some cs
  | [] => rfl
  | c :: cs => by rw [List.map_cons, List.mapM_cons, parseInt_intText, mapM_ints cs]; rfl

theorem takeFields_append (a b : List Str) : takeFields a.length (a ++ b) = some (a, b) := by
  rw [takeFields, if_neg (by simp), List.take_left, List.drop_left]

theorem getFeature_ok (hc : DelimitersOk cfg) {f : FeatureText V} (hf : f.Ok cfg P sh) (rest : List Str) :
    getFeature cfg P f.key f.lengths ((f.body cfg sh).flatMap (split cfg.delimiter) ++ rest) = some (f.value, rest) := by
  obtain ⟨-, -, -, hf⟩ := hf
  cases f with
  | missing k => rfl
  | dense k vs =>
    obtain ⟨h1, h2, h3⟩ := hf
    have hclean : (vs.map (sh k)).flatMap (split cfg.delimiter) = vs.map (sh k) := by
      apply flatMap_clean
      intro t ht
      obtain ⟨v, hv, rfl⟩ := List.mem_map.1 ht
      exact (h3 v hv).2
    simp only [FeatureText.key, FeatureText.lengths, FeatureText.body, FeatureText.value, hclean]
    obtain ⟨n, hn⟩ : ∃ n, vs.length = n + 1 := by
      cases vs with
      | nil => exact absurd rfl h1
      | cons v vs => exact ⟨_, rfl⟩
    rw [hn]
    unfold getFeature
    simp only
    rw [if_neg (show ¬ (n = 0 ∧ k = "binary".toList) from fun hx => h2 ⟨hx.2, by rw [hn, hx.1]⟩)]
    have := takeFields_append (vs.map (sh k)) rest
    rw [List.length_map, hn] at this
    rw [this, Option.bind_some, mapM_show fun v hv => (h3 v hv).1]
    rfl
  | sparse k dim cs vs =>
    obtain ⟨h1, h2, h3⟩ := hf
    have hclean : (vs.map (sh k)).flatMap (split cfg.delimiter) = vs.map (sh k) := by
      apply flatMap_clean
      intro t ht
      obtain ⟨v, hv, rfl⟩ := List.mem_map.1 ht
      exact (h3 v hv).2
    have hclean2 : (cs.map intText).flatMap (split cfg.delimiter) = cs.map intText := by
      apply flatMap_clean
      intro t ht
      obtain ⟨v, hv, rfl⟩ := List.mem_map.1 ht
      exact not_mem_intText ⟨hc.number.1, hc.number.2.1⟩ v
    simp only [FeatureText.key, FeatureText.lengths, FeatureText.body, FeatureText.value, List.flatMap_append, hclean, hclean2]
    obtain ⟨n, hn⟩ : ∃ n, vs.length = n + 1 := by
      cases vs with
      | nil => exact absurd rfl h1
      | cons v vs => exact ⟨_, rfl⟩
    rw [hn, getFeature]
    have e1 := takeFields_append (cs.map intText) (vs.map (sh k) ++ rest)
    rw [List.length_map, h2, hn] at e1
    have e2 := takeFields_append (vs.map (sh k)) rest
    rw [List.length_map, hn] at e2
    rw [List.append_assoc, e1, Option.bind_some, mapM_ints, Option.bind_some, e2, Option.bind_some,
      mapM_show fun v hv => (h3 v hv).1]
    rfl
  | text s =>
    obtain ⟨t, ts, h1, h2⟩ := unescape_text hc.d2 rest s [] (by simp) [] (by simpa using hf)
    simp only [FeatureText.key, FeatureText.lengths, FeatureText.body, FeatureText.value, List.flatMap_cons, List.flatMap_nil,
      List.append_nil]
    rw [List.nil_append] at h1
    rw [h1, List.cons_append, getFeature]
    simp only [List.nil_append] at h2
    rw [if_pos ⟨rfl, rfl⟩]
    simp only
    rw [h2]

theorem parseLengths_ok (hc : DelimitersOk cfg) {ls : List Nat} (hl : ls ≠ []) :
    parseLengths cfg.lengthDelimiter (joinFields cfg.lengthDelimiter (ls.map fun (n : Nat) => intText n)) = some ls := by
  rw [parseLengths, split_join _ (by simpa using hl), flatMap_clean]
  · clear hl
    induction ls with
    | nil => rfl
    | cons n ls ih =>
      rw [List.map_cons, List.mapM_cons, parseInt_intText, ih]
      simp only [Option.bind_some]
      rw [if_neg (by omega)]
      rfl
  · intro t ht
    obtain ⟨n, -, rfl⟩ := List.mem_map.1 ht
    exact not_mem_intText hc.number.2.2 _

theorem lengths_ne_nil (f : FeatureText V) : f.lengths ≠ [] := by
  cases f <;> simp [FeatureText.lengths]

theorem clean_join (hc : DelimitersOk cfg) : ∀ (ls : List Nat),
    cfg.delimiter ∉ joinFields cfg.lengthDelimiter (ls.map fun (n : Nat) => intText n)
  | [] => by simp [joinFields]
  | [n] => by
    rw [List.map_cons, List.map_nil, joinFields]
    exact not_mem_intText ⟨hc.number.1, hc.number.2.1⟩ _
  | n :: k :: ls => by
    have ih := clean_join hc (k :: ls)
    rw [List.map_cons] at ih
    rw [List.map_cons, List.map_cons, joinFields]
    · intro h
      rcases List.mem_append.1 h with h | h
      · exact not_mem_intText ⟨hc.number.1, hc.number.2.1⟩ _ h
      · rcases List.mem_cons.1 h with h | h
        · exact hc.d1 h
        · exact ih h
    · simp

theorem features_ok (hc : DelimitersOk cfg) : ∀ (fs : List (FeatureText V)) (ds : List (Option Str × Option (List Nat))) (fuel : Nat),
    (∀ f ∈ fs, f.Ok cfg P sh) → FeaturesAgree ds fs → fs.length < fuel →
    featureLoop cfg P fuel ds ((featuresFields cfg sh ds fs).flatMap (split cfg.delimiter)) = some (fs.map (·.value))
  | _, _, 0, _, _, h => absurd h (Nat.not_lt_zero _)
  | [], ds, fuel + 1, _, ha, _ => by
    rw [FeaturesAgree] at ha
    subst ha
    rfl
  | f :: fs, ds, fuel + 1, hf, ha, hfuel => by
    rw [FeaturesAgree] at ha
    have ih := features_ok hc fs ds.tail fuel (fun g hg => hf g (List.mem_cons_of_mem _ hg)) ha.2
      (by rw [List.length_cons] at hfuel; omega)
    have hfo := hf f List.mem_cons_self
    have hget := getFeature_ok hc hfo ((featuresFields cfg sh ds.tail fs).flatMap (split cfg.delimiter))
    have ha1 := ha.1
    rw [featuresFields, featureLoop.eq_def]
    simp only
    generalize ds.head?.getD (none, none) = d at ha1
    obtain ⟨dk, dl⟩ := d
    simp only [featureFields, List.flatMap_append]
    have hlen : ∀ (rest : List Str), field dl (parseLengths cfg.lengthDelimiter)
        ((if dl.isNone then [joinFields cfg.lengthDelimiter (f.lengths.map fun (n : Nat) => intText n)] else []).flatMap
          (split cfg.delimiter) ++ rest) = some (f.lengths, rest) := by
      intro rest
      cases dl with
      | none =>
        simp only [Option.isNone_none, if_true, List.flatMap_cons, List.flatMap_nil, List.append_nil]
        rw [split_clean (clean_join hc f.lengths), List.cons_append, field]
        rw [parseLengths_ok hc (lengths_ne_nil f)]
        rfl
      | some l =>
        rw [ha1.2 l rfl]
        rfl
    cases dk with
    | none =>
      simp only [Option.isNone_none, if_true, List.flatMap_cons, List.flatMap_nil, List.append_nil]
      rw [split_clean hfo.2.2.1, List.append_assoc, List.append_assoc, List.cons_append, List.nil_append]
      simp only
      rw [if_neg (by rw [hfo.2.1]; exact hfo.1), hfo.2.1, hlen, Option.bind_some]
      simp only
      rw [hget, Option.bind_some]
      simp only
      rw [ih]
      rfl
    | some k =>
      simp only [Option.isNone_some, Bool.false_eq_true, if_false, List.flatMap_nil, List.nil_append]
      rw [← ha1.1 k rfl, List.append_assoc, hlen, Option.bind_some]
      simp only
      rw [hget, Option.bind_some]
      simp only
      rw [ih]
      rfl

theorem split_length_pos (d : Char) (s : Str) : 0 < (split d s).length := by
  cases e : split d s with
  | nil => exact absurd e (split_ne_nil d s)
  | cons => simp

theorem flatMap_split_length (d : Char) : ∀ ts : List Str, ts.length ≤ (ts.flatMap (split d)).length
  | [] => by simp
  | t :: ts => by
    rw [List.flatMap_cons, List.length_append, List.length_cons]
    have := flatMap_split_length d ts; have := split_length_pos d t
    omega

theorem features_length : ∀ (fs : List (FeatureText V)) (ds : List (Option Str × Option (List Nat))),
    fs.length ≤ (featuresFields cfg sh ds fs).length + ds.length
  | [], _ => by simp
  | f :: fs, ds => by
    have ih := features_length fs ds.tail
    rw [featuresFields, List.length_append, List.length_cons]
    cases ds with
    | nil =>
      have : 1 ≤ (featureFields cfg sh (none, none) f).length := by
        rw [featureFields]; simp
      simp only [List.tail_nil, List.head?_nil, Option.getD_none, List.length_nil] at *
      omega
    | cons d ds =>
      simp only [List.tail_cons, List.length_cons] at *
      omega

theorem field_optional {α : Type} {d : Option α} {read : Str → Option α} {t : Str} {v : α} {c : Char} (hv : read t = some v)
    (hd : ∀ x, d = some x → v = x) (hclean : c ∉ t) (rest : List Str) :
    field d read ((Spec.optional d t).flatMap (split c) ++ rest) = some (v, rest) := by
  cases d with
  | none =>
    rw [Spec.optional]
    simp only [Option.isNone_none, if_true, List.flatMap_cons, List.flatMap_nil, List.append_nil]
    rw [split_clean hclean, List.cons_append, field]
    rw [hv]
    rfl
  | some x => rw [hd x rfl]; rfl

theorem timeField_ok (hc : DelimitersOk cfg) {d t : Option Int}
    (h : if cfg.temporal then (∃ x, t = some x ∧ ∀ y, d = some y → x = y) else t = d) (rest : List Str) :
    timeField cfg d ((timeFields cfg d t).flatMap (split cfg.delimiter) ++ rest) = some (t, rest) := by
  rw [timeField, timeFields]
  by_cases ht : cfg.temporal = true
  · rw [if_pos ht] at *
    obtain ⟨x, rfl, hx⟩ := h
    rw [if_pos ht, Option.getD_some, field_optional (v := x) (parseInt_intText x) hx
      (not_mem_intText ⟨hc.number.1, hc.number.2.1⟩ _)]
    rfl
  · rw [if_neg ht] at *
    rw [if_neg ht, h]
    rfl

end DeepGNN.EdgeList
