import Verif.Model.SamplerCache
import Verif.Spec.SamplerCache

/-
C49: cached samplers.
-/

namespace DeepGNN

open SamplerCache

namespace SamplerCache

/-- Strategy names are prefix free. -/
theorem name_append_inj {a b : Strategy} {s t : List Char} (h : a.name ++ s = b.name ++ t) : a = b ∧ s = t := by
  have h2 : ∀ a : Strategy, 2 ≤ a.name.length := by intro a; cases a <;> decide
  have h3 : ∀ a b : Strategy, a.name.take 2 = b.name.take 2 → a = b := by intro a b; cases a <;> cases b <;> decide
  have h4 : a.name.take 2 = b.name.take 2 := by
    have := congrArg (List.take 2) h
    rwa [List.take_append_of_le_length (h2 a), List.take_append_of_le_length (h2 b)] at this
  have h5 := h3 a b h4
  subst h5
  exact ⟨rfl, List.append_cancel_left h⟩

theorem digit_cases {n : Nat} {c : Char} (h : c ∈ Nat.toDigits 10 n) : c.isDigit = true :=
  Nat.isDigit_of_mem_toDigits (by decide) (by decide) h

theorem toDigits_inj {m n : Nat} (h : Nat.toDigits 10 m = Nat.toDigits 10 n) : m = n := by
  have h1 := Nat.ofDigitChars_ten_toDigits (n := m)
  have h2 := Nat.ofDigitChars_ten_toDigits (n := n)
  rw [h] at h1
  omega

theorem decimal_chars {n : Int} {c : Char} (h : c ∈ decimal n) : c.isDigit = true ∨ c = '-' := by
  rw [decimal] at h
  split at h
  · rcases List.mem_cons.1 h with h | h
    · exact Or.inr h
    · exact Or.inl (digit_cases h)
  · exact Or.inl (digit_cases h)

theorem decimal_ne_nil (n : Int) : decimal n ≠ [] := by
  rw [decimal]; split
  · simp
  · exact Nat.toDigits_ne_nil

theorem decimal_inj {m n : Int} (h : decimal m = decimal n) : m = n := by
  have neg : ∀ k l : Nat, '-' :: Nat.toDigits 10 k ≠ Nat.toDigits 10 l := by
    intro k l e
    have : '-' ∈ Nat.toDigits 10 l := by rw [← e]; exact List.mem_cons_self
    exact absurd (digit_cases this) (by decide)
  rw [decimal, decimal] at h
  split at h <;> split at h
  · have := toDigits_inj (List.cons.inj h).2; omega
  · exact absurd h (neg _ _)
  · exact absurd h.symm (neg _ _)
  · have := toDigits_inj h; omega

/-- Words of a text between blanks. -/
def splitBlanks : List Char → List Char → List (List Char)
  | cur, [] => if cur = [] then [] else [cur]
  | cur, c :: s => if isBlank c then (if cur = [] then splitBlanks [] s else cur :: splitBlanks [] s) else splitBlanks (cur ++ [c]) s

theorem splitBlanks_word (w : List Char) (hw : ∀ c, c ∈ w → isBlank c = false) (cur s : List Char) :
    splitBlanks cur (w ++ s) = splitBlanks (cur ++ w) s := by
  induction w generalizing cur with
  | nil => simp
  | cons c w ih =>
    rw [List.cons_append, splitBlanks, if_neg (by simp [hw c List.mem_cons_self]), ih (fun d hd => hw d (List.mem_cons_of_mem _ hd))]
    simp

theorem splitBlanks_skip (b : List Char) (hb : ∀ c, c ∈ b → isBlank c = true) (s : List Char) :
    splitBlanks [] (b ++ s) = splitBlanks [] s := by
  induction b with
  | nil => rfl
  | cons c b ih =>
    rw [List.cons_append, splitBlanks, if_pos (hb c List.mem_cons_self), if_pos rfl]
    exact ih (fun d hd => hb d (List.mem_cons_of_mem _ hd))

theorem splitBlanks_end (cur b : List Char) (hc : cur ≠ []) (hn : b ≠ []) (hb : ∀ c, c ∈ b → isBlank c = true) (s : List Char) :
    splitBlanks cur (b ++ s) = cur :: splitBlanks [] s := by
  cases b with
  | nil => exact absurd rfl hn
  | cons c b =>
    rw [List.cons_append, splitBlanks, if_pos (hb c List.mem_cons_self), if_neg hc,
      splitBlanks_skip b (fun d hd => hb d (List.mem_cons_of_mem _ hd))]

/-- Splitting a layout gives back its words. -/
theorem splitBlanks_layout (ws : List (List Char)) (hw : ∀ w, w ∈ ws → w ≠ [] ∧ ∀ c, c ∈ w → isBlank c = false)
    (blanks : List (List Char)) (hl : blanks.length = ws.length) (hb : ∀ b, b ∈ blanks → ∀ c, c ∈ b → isBlank c = true)
    (hn : ∀ b, b ∈ blanks.drop 1 → b ≠ []) :
    splitBlanks [] ((blanks.zip ws).flatMap fun p => p.1 ++ p.2) = ws := by
  have key : ∀ (ws : List (List Char)) (blanks : List (List Char)) (cur : List Char), cur ≠ [] →
      (∀ w, w ∈ ws → w ≠ [] ∧ ∀ c, c ∈ w → isBlank c = false) → blanks.length = ws.length →
      (∀ b, b ∈ blanks → ∀ c, c ∈ b → isBlank c = true) → (∀ b, b ∈ blanks → b ≠ []) →
      splitBlanks cur ((blanks.zip ws).flatMap fun p => p.1 ++ p.2) = cur :: ws := by
    intro ws
    induction ws with
    | nil => intro blanks cur hc _ _ _ _; simp [splitBlanks, hc]
    | cons w ws ih =>
      intro blanks cur hc hw hl hb hn
      cases blanks with
      | nil => simp at hl
      | cons b blanks =>
        have hw1 := hw w List.mem_cons_self
        simp only [List.zip_cons_cons, List.flatMap_cons]
        rw [List.append_assoc, splitBlanks_end cur b hc (hn b List.mem_cons_self) (hb b List.mem_cons_self),
          splitBlanks_word w hw1.2, List.nil_append,
          ih blanks w hw1.1 (fun v hv => hw v (List.mem_cons_of_mem _ hv)) (by simpa using hl)
            (fun v hv => hb v (List.mem_cons_of_mem _ hv)) (fun v hv => hn v (List.mem_cons_of_mem _ hv))]
  cases ws with
  | nil => simp [splitBlanks]
  | cons w ws =>
    cases blanks with
    | nil => simp at hl
    | cons b blanks =>
      have hw1 := hw w List.mem_cons_self
      simp only [List.zip_cons_cons, List.flatMap_cons]
      rw [List.append_assoc, splitBlanks_skip b (hb b List.mem_cons_self), splitBlanks_word w hw1.2, List.nil_append]
      exact key ws blanks w hw1.1 (fun v hv => hw v (List.mem_cons_of_mem _ hv)) (by simpa using hl)
        (fun v hv => hb v (List.mem_cons_of_mem _ hv)) hn

theorem layout_inj {ws vs : List (List Char)} {s : List Char} (hw : ∀ w, w ∈ ws → w ≠ [] ∧ ∀ c, c ∈ w → isBlank c = false)
    (hv : ∀ w, w ∈ vs → w ≠ [] ∧ ∀ c, c ∈ w → isBlank c = false) (h1 : Layout ws s) (h2 : Layout vs s) : ws = vs := by
  obtain ⟨b1, l1, k1, n1, e1⟩ := h1
  obtain ⟨b2, l2, k2, n2, e2⟩ := h2
  rw [e1] at e2
  simp only [List.cons_append, List.cons.injEq, true_and] at e2
  have e3 := List.append_cancel_right e2
  rw [← splitBlanks_layout ws hw b1 l1 k1 n1, e3, splitBlanks_layout vs hv b2 l2 k2 n2]

theorem decimal_word (n : Int) : decimal n ≠ [] ∧ ∀ c, c ∈ decimal n → isBlank c = false := by
  refine ⟨decimal_ne_nil n, fun c hc => ?_⟩
  rcases decimal_chars hc with h | h
  · rw [isBlank]
    by_cases e1 : c = ' '
    · subst e1; exact absurd h (by decide)
    · by_cases e2 : c = '\n'
      · subst e2; exact absurd h (by decide)
      · simp [e1, e2]
  · subst h; decide

theorem map_decimal_inj : ∀ a b : List Int, a.map decimal = b.map decimal → a = b
  | [], [], _ => rfl
  | [], _ :: _, h => by simp at h
  | _ :: _, [], h => by simp at h
  | x :: a, y :: b, h => by
    simp only [List.map_cons, List.cons.injEq] at h
    rw [decimal_inj h.1, map_decimal_inj a b h.2]

/-- `str` tells requests apart that numpy prints in full. -/
theorem str_inj {str : Types → List Char} (hs : NumpyStr str) {a b : Types} (ha : Spec.Printed a) (hb : Spec.Printed b)
    (h : str a = str b) : a = b := by
  have cross : ∀ (n : Int) (l : List Int), str (.int n) ≠ str (.array l) := by
    intro n l e
    obtain ⟨bl, _, _, _, e2⟩ := hs.array l
    rw [← e, hs.int] at e2
    have : '[' ∈ decimal n := by rw [e2]; simp
    rcases decimal_chars this with h | h
    · exact absurd h (by decide)
    · exact absurd h (by decide)
  cases a with
  | int m =>
    cases b with
    | int n => rw [hs.int, hs.int] at h; rw [decimal_inj h]
    | array l => exact absurd h (cross m l)
  | array k =>
    cases b with
    | int n => exact absurd h.symm (cross n k)
    | array l =>
      have h1 := hs.array k
      have h2 := hs.array l
      rw [h] at h1
      rw [words, if_pos (show k.length ≤ 1000 from ha)] at h1
      rw [words, if_pos (show l.length ≤ 1000 from hb)] at h2
      have hw : ∀ l : List Int, ∀ w, w ∈ l.map decimal → w ≠ [] ∧ ∀ c, c ∈ w → isBlank c = false := by
        intro l w hw
        rw [List.mem_map] at hw
        obtain ⟨n, _, rfl⟩ := hw
        exact decimal_word n
      rw [map_decimal_inj k l (layout_inj (hw k) (hw l) h1 h2)]

theorem lookup_mem {β : Type} {k : List Char} {v : β} : ∀ {l : List (List Char × β)}, l.lookup k = some v → (k, v) ∈ l
  | [], h => by simp at h
  | (k', v') :: l, h => by
    rw [List.lookup_cons] at h
    split at h
    · rename_i e
      have e' : k = k' := by simpa using e
      rw [Option.some.inj h, e']; exact List.mem_cons_self
    · exact List.mem_cons_of_mem _ (lookup_mem h)

/-- Histories with a key that determines the answer: every call gets what it asked for. -/
theorem history_eq {β : Type} (ok : List Int → List Char → Bool) (key : Request → List Char) (P : Request → Prop)
    (view : Sampler → β)
    (hk : ∀ a b, P a → P b → key a = key b →
      view ⟨checkTypes a.types, a.strategy.name⟩ = view ⟨checkTypes b.types, b.strategy.name⟩ ∧
      ok (checkTypes a.types) a.strategy.name = ok (checkTypes b.types) b.strategy.name) :
    ∀ (rs : List Request) (cache : Cache), (∀ r, r ∈ rs → P r) →
      (∀ k s, (k, s) ∈ cache → ∃ r, P r ∧ k = key r ∧ s = ⟨checkTypes r.types, r.strategy.name⟩ ∧
        ok (checkTypes r.types) r.strategy.name = true) →
      (history (fun r => use ok (key r) r) rs cache).map (Option.map view) =
        rs.map fun r => (Spec.requested ok r).map view
  | [], _, _, _ => rfl
  | r :: rs, cache, hp, hc => by
    have hr := hp r List.mem_cons_self
    have hrs := fun x hx => hp x (List.mem_cons_of_mem _ hx)
    have ih := fun c => history_eq ok key P view hk rs c hrs
    rw [history, List.map_cons, List.map_cons]
    cases hl : cache.lookup (key r) with
    | some s =>
      obtain ⟨r', hp', he, hs, hok⟩ := hc _ _ (lookup_mem hl)
      obtain ⟨hv, ho⟩ := hk r r' hr hp' he
      have hu : use ok (key r) r cache = (some s, cache) := by rw [use, hl]
      rw [hu, ih cache hc, Spec.requested, ho, if_pos hok]
      simp only [Option.map_some]
      rw [hv, hs]
    | none =>
      by_cases ho : ok (checkTypes r.types) r.strategy.name = true
      · have hu : use ok (key r) r cache = (some ⟨checkTypes r.types, r.strategy.name⟩,
            cache ++ [(key r, ⟨checkTypes r.types, r.strategy.name⟩)]) := by
          rw [use, hl]; simp only; rw [if_pos ho]
        rw [hu, ih _ (by
          intro k s hm
          rcases List.mem_append.1 hm with hm | hm
          · exact hc k s hm
          · rw [List.mem_singleton, Prod.mk.injEq] at hm
            exact ⟨r, hr, hm.1, hm.2, ho⟩), Spec.requested, if_pos ho]
      · have hu : use ok (key r) r cache = (none, cache) := by
          rw [use, hl]; simp only; rw [if_neg ho]
        rw [hu, ih cache hc, Spec.requested, if_neg ho]

end SamplerCache

/-- Node sampling: every call of every history uses a sampler for its own types and strategy, and fails only if none can be
created, if numpy prints the requested types in full (at most 1000 of them). -/
theorem C49_nodes_partial {str : Types → List Char} (hs : NumpyStr str) (ok : List Int → List Char → Bool) (rs : List Request)
    (hp : ∀ r, r ∈ rs → Spec.Printed r.types) :
    history (nodeStep str ok) rs [] = rs.map (Spec.requested ok) := by
  have := history_eq ok (fun r => r.strategy.name ++ str r.types) (fun r => Spec.Printed r.types) id (by
    intro a b ha hb h
    have h2 := name_append_inj h
    have h3 := str_inj hs ha hb h2.2
    rw [h3, h2.1]
    exact ⟨rfl, rfl⟩) rs [] hp (by intro k s h; exact absurd h List.not_mem_nil)
  rw [Option.map_id, List.map_id] at this
  exact this.trans (List.map_congr_left fun r _ => by simp)

/-- Edge sampling: every call uses a sampler for its own types; if all calls of a history ask for the same strategy it is
also of that strategy. -/
theorem C49_edges_partial {str : Types → List Char} (hs : NumpyStr str) (ok : List Int → List Char → Bool) (rs : List Request)
    (hp : ∀ r, r ∈ rs → Spec.Printed r.types) {strategy : Strategy} (he : ∀ r, r ∈ rs → r.strategy = strategy) :
    history (edgeStep str ok) rs [] = rs.map (Spec.requested ok) := by
  have := history_eq ok (fun r => str r.types) (fun r => Spec.Printed r.types ∧ r.strategy = strategy) id (by
    intro a b ha hb h
    have h3 := str_inj hs ha.1 hb.1 h
    rw [h3, ha.2, hb.2]
    exact ⟨rfl, rfl⟩) rs [] (fun r hr => ⟨hp r hr, he r hr⟩) (by intro k s h; exact absurd h List.not_mem_nil)
  rw [Option.map_id, List.map_id] at this
  exact this.trans (List.map_congr_left fun r _ => by simp)

/-- Edge sampling with any strategies, if samplers can always be created: the types are the requested ones. -/
theorem C49_edge_types_partial {str : Types → List Char} (hs : NumpyStr str) (rs : List Request)
    (hp : ∀ r, r ∈ rs → Spec.Printed r.types) :
    (history (edgeStep str fun _ _ => true) rs []).map (Option.map (·.types)) =
      rs.map fun r => some (checkTypes r.types) := by
  have := history_eq (fun _ _ => true) (fun r => str r.types) (fun r => Spec.Printed r.types) (·.types) (by
    intro a b ha hb h
    have h3 := str_inj hs ha hb h
    rw [h3]
    exact ⟨rfl, rfl⟩) rs [] hp (by intro k s h; exact absurd h List.not_mem_nil)
  exact this.trans (List.map_congr_left fun r _ => rfl)

namespace SamplerCache

/-- One blank between words: what numpy prints for numbers of equal width that fit in a line. -/
def simpleStr : Types → List Char
  | .int n => decimal n
  | .array l =>
    let ws := words l
    '[' :: (((ws.zipIdx.map fun p => if p.2 = 0 then [] else [' ']).zip ws).flatMap fun p => p.1 ++ p.2) ++ [']']

theorem simpleStr_ok : NumpyStr simpleStr := by
  refine ⟨fun _ => rfl, fun l => ⟨(words l).zipIdx.map fun p => if p.2 = 0 then [] else [' '], by simp, ?_, ?_, rfl⟩⟩
  · intro b hb c hc
    rw [List.mem_map] at hb
    obtain ⟨p, _, rfl⟩ := hb
    split at hc
    · simp at hc
    · rw [List.mem_singleton] at hc; subst hc; decide
  · intro b hb
    cases h : words l with
    | nil => rw [h] at hb; simp at hb
    | cons w ws =>
      rw [h] at hb
      simp only [List.zipIdx_cons, List.map_cons, List.drop_one, List.tail_cons] at hb
      rw [List.mem_map] at hb
      obtain ⟨p, hp, rfl⟩ := hb
      have := List.le_snd_of_mem_zipIdx hp
      rw [if_neg (by omega)]
      simp

end SamplerCache

example : NumpyStr simpleStr ∧
    history (nodeStep simpleStr fun _ _ => true)
      [⟨.int 0, .weighted⟩, ⟨.array [0], .weighted⟩, ⟨.array [0, 1], .random⟩, ⟨.int 0, .random⟩] [] =
    [some ⟨[0], "weighted".toList⟩, some ⟨[0], "weighted".toList⟩, some ⟨[0, 1], "uniform".toList⟩,
      some ⟨[0], "uniform".toList⟩] :=
  ⟨simpleStr_ok, by decide +kernel⟩

/-- Edge samplers are kept by types only: after a weighted sample of type 0, a uniform one is drawn by weight. -/
theorem C49_edge_strategy_refuted :
    history (edgeStep simpleStr fun _ _ => true) [⟨.int 0, .weighted⟩, ⟨.int 0, .random⟩] [] =
      [some ⟨[0], "weighted".toList⟩, some ⟨[0], "weighted".toList⟩] := by
  decide +kernel

/-- Two arrays of 1001 types which differ in the middle share a key, so the second call samples the types of the first. -/
theorem C49_long_refuted :
    let a := List.replicate 1001 (0 : Int)
    let b := List.replicate 500 0 ++ [1] ++ List.replicate 500 0
    simpleStr (.array a) = "[0 0 0 ... 0 0 0]".toList ∧
    history (nodeStep simpleStr fun _ _ => true) [⟨.array a, .random⟩, ⟨.array b, .random⟩] [] =
      [some ⟨a, "uniform".toList⟩, some ⟨a, "uniform".toList⟩] ∧ 1 ∈ b ∧ 1 ∉ a := by
  decide +kernel

end DeepGNN
