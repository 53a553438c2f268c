import Verif.Spec.Embeddings
import Verif.Proofs.Tsv

namespace DeepGNN.Embeddings

open Spec EdgeList

theorem micro_near (num den : Nat) (hd : 0 < den) :
    2 * (num * 1000000) ≤ 2 * (micro num den * den) + den ∧ 2 * (micro num den * den) ≤ 2 * (num * 1000000) + den := by
  have h1 := Nat.div_add_mod (num * 1000000) den
  have h2 := Nat.mod_lt (num * 1000000) hd
  generalize hq : num * 1000000 / den = q at h1
  generalize hr : num * 1000000 % den = r at h1 h2
  unfold micro
  simp only [hq, hr]
  rw [Nat.mul_comm] at h1
  split
  · omega
  · split
    · rw [Nat.add_mul]; omega
    · rcases Nat.mod_two_eq_zero_or_one q with h | h
      · rw [h]; simp only [Nat.add_zero]; omega
      · rw [h, Nat.add_mul]; omega

theorem digits_isDigit : ∀ (k n : Nat), ∀ c ∈ digits k n, c.isDigit = true
  | 0, _, c, h => by cases h
  | k + 1, n, c, h => by
    rw [digits] at h
    rcases List.mem_append.1 h with h | h
    · exact digits_isDigit k _ c h
    · rw [List.mem_singleton.1 h]
      have : n % 10 < 10 := Nat.mod_lt _ (by decide)
      revert this
      generalize n % 10 = d
      intro hd
      match d, hd with
      | 0, _ => decide
      | 1, _ => decide
      | 2, _ => decide
      | 3, _ => decide
      | 4, _ => decide
      | 5, _ => decide
      | 6, _ => decide
      | 7, _ => decide
      | 8, _ => decide
      | 9, _ => decide

theorem digits_length : ∀ (k n : Nat), (digits k n).length = k
  | 0, _ => rfl
  | k + 1, n => by rw [digits, List.length_append, digits_length k]; rfl

theorem ofDigit_last (l : Str) (d init : Nat) (hd : d < 10) :
    Nat.ofDigitChars 10 (l ++ [Nat.digitChar d]) init = Nat.ofDigitChars 10 l init * 10 + d := by
  rw [Nat.ofDigitChars, List.foldl_append]
  show 10 * Nat.ofDigitChars 10 l init + ((Nat.digitChar d).toNat - '0'.toNat) = _
  have : (Nat.digitChar d).toNat - '0'.toNat = d := by
    match d, hd with
    | 0, _ => rfl
    | 1, _ => rfl
    | 2, _ => rfl
    | 3, _ => rfl
    | 4, _ => rfl
    | 5, _ => rfl
    | 6, _ => rfl
    | 7, _ => rfl
    | 8, _ => rfl
    | 9, _ => rfl
  rw [this]
  omega

theorem ofDigits_digits : ∀ (k n init : Nat), n < 10 ^ k → Nat.ofDigitChars 10 (digits k n) init = init * 10 ^ k + n
  | 0, n, init, h => by
    have : n = 0 := by simpa using h
    subst this
    simp [digits, Nat.ofDigitChars]
  | k + 1, n, init, h => by
    have h10 : n % 10 < 10 := Nat.mod_lt _ (by decide)
    rw [digits, ofDigit_last _ _ _ h10, ofDigits_digits k (n / 10) init (by rw [Nat.pow_succ] at h; omega), Nat.add_mul,
      Nat.pow_succ, Nat.mul_assoc]
    omega

/-! Formatted values. -/

theorem digit_facts {c : Char} (h : c.isDigit = true) : c ≠ '-' ∧ c ≠ '.' ∧ c ≠ ' ' ∧ c ≠ '\t' ∧ c ≠ '\n' ∧ c ≠ 'n' ∧ c ≠ 'i' := by
  refine ⟨?_, ?_, ?_, ?_, ?_, ?_, ?_⟩ <;> (rintro rfl; exact absurd h (by decide))

theorem digit_white {c : Char} (h : c.isDigit = true) : c.isWhitespace = false := by
  simp only [Char.isDigit, Bool.and_eq_true, decide_eq_true_eq] at h
  cases hw : c.isWhitespace with
  | false => rfl
  | true =>
    exfalso
    simp only [Char.isWhitespace, Bool.or_eq_true, decide_eq_true_eq] at hw
    rcases hw with ((rfl | rfl) | rfl) | rfl <;> exact absurd h.1 (by decide)

theorem toDigits_isDigit (n : Nat) : ∀ c ∈ Nat.toDigits 10 n, c.isDigit = true := fun _ hc =>
  Nat.isDigit_of_mem_toDigits (by decide) (by decide) hc

/-- Characters of formatted values. -/
theorem mem_format {v : Value} {c : Char} (h : c ∈ format v) :
    c.isDigit = true ∨ c = '-' ∨ c = '.' ∨ c = 'i' ∨ c = 'n' ∨ c = 'f' ∨ c = 'a' := by
  have hs : ∀ neg, c ∈ sign neg → c = '-' := by
    intro neg h
    unfold sign at h
    split at h
    · exact List.mem_singleton.1 h
    · cases h
  cases v with
  | fin neg num den =>
    rw [format] at h
    rcases List.mem_append.1 h with h | h
    · rcases List.mem_append.1 h with h | h
      · exact .inr (.inl (hs _ h))
      · exact .inl (toDigits_isDigit _ c h)
    · rcases List.mem_cons.1 h with h | h
      · exact .inr (.inr (.inl h))
      · exact .inl (digits_isDigit _ _ c h)
  | inf neg =>
    rw [format] at h
    rcases List.mem_append.1 h with h | h
    · exact .inr (.inl (hs _ h))
    · simp only [List.mem_cons, List.not_mem_nil, or_false] at h
      rcases h with h | h | h <;> simp [h]
  | nan =>
    simp only [format, List.mem_cons, List.not_mem_nil, or_false] at h
    rcases h with h | h | h <;> simp [h]

theorem format_white {v : Value} {c : Char} (h : c ∈ format v) : c.isWhitespace = false := by
  rcases mem_format h with h | h | h | h | h | h | h
  · exact digit_white h
  all_goals (subst h; decide)

theorem format_clean (v : Value) : ' ' ∉ format v ∧ '\t' ∉ format v ∧ '\n' ∉ format v := by
  refine ⟨?_, ?_, ?_⟩ <;> (intro h; have := format_white h; exact absurd this (by decide))

/-- The value that is read. -/
def rounded : Value → Value
  | .fin neg num den => .fin neg (micro num den) 1000000
  | .inf neg => .inf neg
  | .nan => .nan

theorem rounded_near {v : Value} (h : ValidValue v) : Near6 v (rounded v) := by
  cases v with
  | fin neg num den => exact ⟨rfl, rfl, micro_near num den h⟩
  | inf neg => rfl
  | nan => trivial

theorem parseAbs_digits (neg : Bool) (num den : Nat) :
    parseAbs neg (Nat.toDigits 10 (micro num den / 1000000) ++ '.' :: digits 6 (micro num den % 1000000)) =
      some (.fin neg (micro num den) 1000000) := by
  generalize micro num den = m
  have ha := toDigits_isDigit (m / 1000000)
  have hb := digits_isDigit 6 (m % 1000000)
  have h0 : ¬ (Nat.toDigits 10 (m / 1000000) ++ '.' :: digits 6 (m % 1000000) = ['i', 'n', 'f']) := by
    intro e
    have : '.' ∈ ['i', 'n', 'f'] := by rw [← e]; simp
    exact absurd this (by decide)
  have h1 : '.' ∉ Nat.toDigits 10 (m / 1000000) := fun h => (digit_facts (ha _ h)).2.1 rfl
  have h2 : '.' ∉ digits 6 (m % 1000000) := fun h => (digit_facts (hb _ h)).2.1 rfl
  unfold parseAbs
  rw [if_neg h0, split_append, split_clean h1, split_clean h2]
  show (if _ then _ else _) = _
  rw [if_pos ⟨Nat.toDigits_ne_nil, List.all_eq_true.2 ha, List.all_eq_true.2 hb⟩, digits_length]
  rw [Nat.ofDigitChars, List.foldl_append]
  have e1 := ofDigits_digits 6 (m % 1000000) (Nat.ofDigitChars 10 (Nat.toDigits 10 (m / 1000000)) 0)
    (Nat.mod_lt _ (by decide))
  rw [Nat.ofDigitChars_ten_toDigits] at e1
  have e2 : Nat.ofDigitChars 10 (Nat.toDigits 10 (m / 1000000)) 0 = m / 1000000 := Nat.ofDigitChars_ten_toDigits
  unfold Nat.ofDigitChars at e1 e2
  rw [e2, e1]
  congr 2
  have := Nat.div_add_mod m 1000000
  omega

theorem parse_format (v : Value) : parseFloat (format v) = some (rounded v) := by
  unfold parseFloat
  rw [Tsv.strip_clean fun c hc => format_white hc]
  cases v with
  | fin neg num den =>
    cases neg with
    | true =>
      show parseAbs true _ = _
      exact parseAbs_digits true num den
    | false =>
      have e : format (.fin false num den) =
        Nat.toDigits 10 (micro num den / 1000000) ++ '.' :: digits 6 (micro num den % 1000000) := rfl
      rw [e]
      cases hd : Nat.toDigits 10 (micro num den / 1000000) with
      | nil => exact absurd hd Nat.toDigits_ne_nil
      | cons a l =>
        have ha : a.isDigit = true := toDigits_isDigit _ a (by rw [hd]; simp)
        have hf := digit_facts ha
        have := parseAbs_digits false num den
        rw [hd] at this
        split
        · next h => exact absurd (List.cons.inj h).1 hf.1
        · next h => exact absurd (List.cons.inj h).1 hf.2.2.2.2.2.1
        · exact this
  | inf neg => cases neg <;> rfl
  | nan => rfl

/-! Lines. -/

theorem join_eq (l : List Str) : join l = joinFields ' ' l := by
  induction l with
  | nil => rfl
  | cons a l ih =>
    cases l with
    | nil => rfl
    | cons b l => rw [join, joinFields, ih] <;> simp

theorem intStr_eq (n : Int) : intStr n = intText n := rfl

theorem mem_join {c : Char} : ∀ {l : List Str}, c ∈ join l → c = ' ' ∨ ∃ t ∈ l, c ∈ t
  | [], h => by cases h
  | [t], h => .inr ⟨t, by simp, h⟩
  | t :: u :: l, h => by
    rw [join] at h
    · rcases List.mem_append.1 h with h | h
      · exact .inr ⟨t, by simp, h⟩
      · rcases List.mem_cons.1 h with h | h
        · exact .inl h
        · rcases mem_join h with h | ⟨s, hs, h⟩
          · exact .inl h
          · exact .inr ⟨s, by simp [List.mem_cons.1 hs], h⟩
    · simp

theorem strip_newline {s : Str} (h : ∀ c ∈ s, c.isWhitespace = false) (hs : s ≠ []) : strip (s ++ ['\n']) = s := by
  have h1 : ∀ {l : Str} (r : Str), (∀ c ∈ l, c.isWhitespace = false) → l ≠ [] → (l ++ r).dropWhile Char.isWhitespace = l ++ r := by
    intro l r hl hn
    cases l with
    | nil => exact absurd rfl hn
    | cons c l => rw [List.cons_append, List.dropWhile_cons, if_neg (by rw [hl c (by simp)]; decide)]
  unfold strip
  rw [h1 _ h hs, List.reverse_append]
  show (List.dropWhile Char.isWhitespace ('\n' :: s.reverse)).reverse = s
  rw [List.dropWhile_cons, if_pos (by decide)]
  have := h1 [] (l := s.reverse) (fun c hc => h c (List.mem_reverse.1 hc)) (by simpa using hs)
  rw [List.append_nil] at this
  rw [this, List.reverse_reverse]

theorem format_ne (v : Value) : format v ≠ [] := by
  cases v with
  | fin neg num den => simp [format]
  | inf neg => simp [format]
  | nan => simp [format]

theorem parse_newline (v : Value) : parseFloat (format v ++ ['\n']) = some (rounded v) := by
  have := parse_format v
  unfold parseFloat at this ⊢
  rw [Tsv.strip_clean fun c hc => format_white hc] at this
  rw [strip_newline (fun c hc => format_white hc) (format_ne v)]
  exact this

theorem join_newline : ∀ (l : List Str) (t : Str), join (l ++ [t]) ++ ['\n'] = joinFields ' ' (l ++ [t ++ ['\n']])
  | [], t => rfl
  | [a], t => by simp [join, joinFields]
  | a :: b :: l, t => by
    have := join_newline (b :: l) t
    simp only [List.cons_append] at this ⊢
    rw [join, joinFields, ← this]
    · simp
    · simp
    · simp

theorem mapM_snoc {α β : Type} (f : α → Option β) (g : α → β) : ∀ (l : List α) (x : α) (y : β), (∀ a ∈ l, f a = some (g a)) →
    f x = some y → (l ++ [x]).mapM f = some (l.map g ++ [y])
  | [], x, y, _, h => by rw [List.nil_append, List.mapM_cons, h]; rfl
  | a :: l, x, y, h, h' => by
    rw [List.cons_append, List.mapM_cons, h a (by simp), mapM_snoc f g l x y (fun a ha => h a (by simp [ha])) h']
    rfl

/-- The values of a line are read back. -/
theorem values_read (vs : List Value) (hv : vs ≠ []) :
    (split ' ' (join (vs.map format) ++ ['\n'])).mapM parseFloat = some (vs.map rounded) := by
  obtain ⟨l, x, rfl⟩ : ∃ l x, vs = l ++ [x] := ⟨vs.dropLast, vs.getLast hv, (List.dropLast_concat_getLast hv).symm⟩
  rw [List.map_append, List.map_cons, List.map_nil, join_newline, split_join ' ' (by simp)]
  rw [flatMap_clean (d := ' ')]
  · rw [List.map_append]
    have : (l.map format ++ [format x ++ ['\n']]).mapM parseFloat = _ :=
      mapM_snoc parseFloat (fun s => (parseFloat s).getD .nan) (l.map format) (format x ++ ['\n']) (rounded x)
        (fun a ha => by
          obtain ⟨v, -, rfl⟩ := List.mem_map.1 ha
          rw [parse_format]; rfl) (parse_newline x)
    rw [this, List.map_map]
    congr 2
    apply List.map_congr_left
    intro v _
    show (parseFloat (format v)).getD .nan = _
    rw [parse_format]
    rfl
  · intro t ht
    rcases List.mem_append.1 ht with ht | ht
    · obtain ⟨v, -, rfl⟩ := List.mem_map.1 ht
      exact (format_clean v).1
    · rw [List.mem_singleton.1 ht]
      intro h
      rcases List.mem_append.1 h with h | h
      · exact (format_clean x).1 h
      · simp at h

theorem clean_join (vs : List Value) : '\t' ∉ join (vs.map format) ∧ '\n' ∉ join (vs.map format) := by
  constructor
  · intro h
    rcases mem_join h with h | ⟨t, ht, h⟩
    · exact absurd h (by decide)
    · obtain ⟨v, -, rfl⟩ := List.mem_map.1 ht
      exact (format_clean v).2.1 h
  · intro h
    rcases mem_join h with h | ⟨t, ht, h⟩
    · exact absurd h (by decide)
    · obtain ⟨v, -, rfl⟩ := List.mem_map.1 ht
      exact (format_clean v).2.2 h

theorem loadLine_line (dim : Nat) (res : List (List Value)) (x : Int × List Value) (hx : x.2 ≠ []) (hd : x.2.length = dim) :
    loadLine dim res (line x) = setRow res x.1 (x.2.map rounded) := by
  have e : line x = intText x.1 ++ '\t' :: (join (x.2.map format) ++ ['\n']) := by
    simp [line, intStr_eq]
  have h1 : '\t' ∉ intText x.1 := not_mem_intText (by decide) _
  have h2 : '\t' ∉ join (x.2.map format) ++ ['\n'] := by
    intro h
    rcases List.mem_append.1 h with h | h
    · exact (clean_join x.2).1 h
    · simp at h
  unfold loadLine
  rw [e, split_append, split_clean h1, split_clean h2]
  show (parseInt (strip (intText x.1))).bind _ = _
  have : parseInt (strip (intText x.1)) = some x.1 := Tsv.readInt_intText x.1
  rw [this, Option.bind_some, values_read x.2 hx, Option.bind_some]
  rw [if_pos (by simpa using hd)]

theorem loadLine_other (dim : Nat) (res : List (List Value)) (x : Int × List Value) (hx : x.2 ≠ []) (hd : x.2.length ≠ dim) :
    loadLine dim res (line x) = none := by
  have e : line x = intText x.1 ++ '\t' :: (join (x.2.map format) ++ ['\n']) := by
    simp [line, intStr_eq]
  have h1 : '\t' ∉ intText x.1 := not_mem_intText (by decide) _
  have h2 : '\t' ∉ join (x.2.map format) ++ ['\n'] := by
    intro h
    rcases List.mem_append.1 h with h | h
    · exact (clean_join x.2).1 h
    · simp at h
  unfold loadLine
  rw [e, split_append, split_clean h1, split_clean h2]
  show (parseInt (strip (intText x.1))).bind _ = _
  have : parseInt (strip (intText x.1)) = some x.1 := Tsv.readInt_intText x.1
  rw [this, Option.bind_some, values_read x.2 hx, Option.bind_some]
  rw [if_neg (by simpa using hd)]

theorem fileLines_append : ∀ (l r : Str), '\n' ∉ l → fileLines (l ++ '\n' :: r) = (l ++ ['\n']) :: fileLines r
  | [], r, _ => by rw [List.nil_append, fileLines]; simp
  | c :: l, r, h => by
    have hc : c ≠ '\n' := fun e => h (by simp [e])
    rw [List.cons_append, fileLines, if_neg hc, fileLines_append l r fun e => h (by simp [e])]
    rfl

theorem fileLines_lines : ∀ l : List (Int × List Value), fileLines (l.map line).flatten = l.map line
  | [] => rfl
  | x :: l => by
    have e : line x = (intText x.1 ++ '\t' :: join (x.2.map format)) ++ ['\n'] := by simp [line, intStr_eq]
    have hn : '\n' ∉ intText x.1 ++ '\t' :: join (x.2.map format) := by
      intro h
      rcases List.mem_append.1 h with h | h
      · exact not_mem_intText (by decide) _ h
      · rcases List.mem_cons.1 h with h | h
        · exact absurd h (by decide)
        · exact (clean_join x.2).2 h
    rw [List.map_cons, List.flatten_cons, e, List.append_assoc]
    rw [show ['\n'] ++ (l.map line).flatten = '\n' :: (l.map line).flatten from rfl, fileLines_append _ _ hn, fileLines_lines l]

/-! Rows. -/

theorem setRow_ok (res : List (List Value)) (i : Int) (e : List Value) (h : 0 ≤ i) (h' : i < res.length) :
    setRow res i e = some (res.set i.toNat e) := by
  unfold setRow
  have : ¬ i < 0 := by omega
  simp only [this, if_false]
  rw [if_pos ⟨h, h'⟩]

/-- Rows written one after the other. -/
theorem foldRows (dim : Nat) (f : Int → List Value) : ∀ (ids : List Int) (res : List (List Value)),
    (∀ i ∈ ids, 0 ≤ i ∧ i < res.length ∧ f i ≠ [] ∧ (f i).length = dim) →
    ∃ out, (ids.map fun i => line (i, f i)).foldlM (loadLine dim) res = some out ∧ out.length = res.length ∧
      ∀ k : Nat, k < res.length → out[k]? = if (k : Int) ∈ ids then some ((f k).map rounded) else res[k]?
  | [], res, _ => ⟨res, rfl, rfl, fun k _ => by simp⟩
  | i :: ids, res, h => by
    obtain ⟨h0, h1, h2, h3⟩ := h i (by simp)
    obtain ⟨out, e1, e2, e3⟩ := foldRows dim f ids (res.set i.toNat ((f i).map rounded)) (fun j hj => by
      rw [List.length_set]
      exact h j (by simp [hj]))
    rw [List.length_set] at e2 e3
    refine ⟨out, ?_, e2, ?_⟩
    · rw [List.map_cons, List.foldlM_cons, loadLine_line dim res (i, f i) h2 h3, setRow_ok _ _ _ h0 h1]
      exact e1
    · intro k hk
      rw [e3 k hk]
      by_cases hm : (k : Int) ∈ ids
      · rw [if_pos hm, if_pos (by simp [hm])]
      · rw [if_neg hm]
        by_cases hi : (k : Int) = i
        · subst hi
          rw [if_pos (by simp)]
          simp [hk]
        · rw [if_neg (by simp [hi, hm]), List.getElem?_set_ne (by omega)]

theorem foldlM_flatMap {α β γ : Type} (g : γ → β → Option γ) (h : α → List β) : ∀ (l : List α) (s : γ),
    l.foldlM (fun s a => (h a).foldlM g s) s = (l.flatMap h).foldlM g s
  | [], _ => rfl
  | a :: l, s => by
    rw [List.foldlM_cons, List.flatMap_cons, List.foldlM_append]
    cases (h a).foldlM g s with
    | none => rfl
    | some s' => exact foldlM_flatMap g h l s'

/-- The ids written for batches. -/
def kept (invalid : Int) (batches : List (List Int)) : List Int := batches.flatten.filter fun i => i != invalid

theorem inference_eq (f : Int → List Value) (invalid : Int) (batches : List (List Int)) :
    inference (fun b => b.map f) invalid batches =
      some ((kept invalid batches).map fun i => line (i, f i)).flatten := by
  have hb : ∀ b : List Int, toLines invalid b (b.map f) =
      some ((b.filter fun i => i != invalid).map fun i => line (i, f i)) := by
    intro b
    unfold toLines
    rw [if_pos (by simp)]
    congr 1
    induction b with
    | nil => rfl
    | cons i b ih =>
      rw [List.map_cons, List.zip_cons_cons]
      by_cases h : (i != invalid) = true
      · rw [List.filter_cons_of_pos (p := fun i => i != invalid) h, List.map_cons, ← ih,
          List.filter_cons_of_pos (by exact h), List.map_cons]
      · rw [List.filter_cons_of_neg (p := fun i => i != invalid) h, ← ih, List.filter_cons_of_neg (by exact h)]
  have hm : ∀ l : List (List Int), l.mapM (fun b => toLines invalid b (b.map f)) =
      some (l.map fun b => (b.filter fun i => i != invalid).map fun i => line (i, f i)) := by
    intro l
    induction l with
    | nil => rfl
    | cons b l ih => rw [List.mapM_cons, hb, ih]; rfl
  unfold inference
  rw [hm, Option.map_some]
  congr 2
  unfold kept
  induction batches with
  | nil => rfl
  | cons b l ih =>
    rw [List.map_cons, List.flatten_cons, ih, List.flatten_cons, List.filter_append, List.map_append]

theorem load_eq (n dim : Nat) (f : Int → List Value) (idss : List (List Int)) :
    load n dim (idss.map fun ids => (ids.map fun i => line (i, f i)).flatten) =
      (idss.flatten.map fun i => line (i, f i)).foldlM (loadLine dim) (List.replicate n (List.replicate dim (.fin false 0 1))) := by
  unfold load
  have := foldlM_flatMap (loadLine dim) fileLines (idss.map fun ids => (ids.map fun i => line (i, f i)).flatten)
    (List.replicate n (List.replicate dim (.fin false 0 1)))
  rw [this]
  clear this
  congr 1
  induction idss with
  | nil => rfl
  | cons ids l ih =>
    rw [List.map_cons, List.flatMap_cons, ih, List.flatten_cons, List.map_append]
    congr 1
    have := fileLines_lines (ids.map fun i => (i, f i))
    rw [List.map_map] at this
    exact this

theorem near_map {vs : List Value} (h : ∀ v ∈ vs, ValidValue v) : NearRow vs (vs.map rounded) := by
  induction vs with
  | nil => trivial
  | cons v vs ih => exact ⟨rounded_near (h v (by simp)), ih fun u hu => h u (by simp [hu])⟩

end DeepGNN.Embeddings
