import Verif.Proofs.Args

/-
C101: values on the command line arrive in the program as they are written: lists of integers and texts, lists of lists, flags in any
spelling; arrays are written so that they can be read back; and the servers of a group load every partition exactly once.
-/

namespace DeepGNN

open DeepGNN.Args DeepGNN.EdgeList DeepGNN.Spec

/-- Every list of integers, also the empty one, arrives as written; a list stays as it is. -/
theorem C101_ints (l : List Int) : str2listInt (.text (commaText l)) = some l ∧ str2listInt (.value l) = some l := by
  refine ⟨?_, rfl⟩
  show (if commaText l = [] then some [] else (split ',' (commaText l)).mapM parseInt) = _
  by_cases h : l = []
  · subst h
    rfl
  · rw [if_neg (by rw [commaText_nil]; exact h), ints_split h]

/-- Lists of lists of integers, as metapaths, arrive as written.  Missing for the full property: empty lists (C101_groups_refuted). -/
theorem C101_groups_partial {l : List (List Int)} (h : [] ∉ l) :
    str2list2Int (.text (groupsText l)) = some l ∧ str2list2Int (.value l) = some l := by
  refine ⟨?_, rfl⟩
  rw [groups_eq, List.filter_eq_self.2]
  intro g hg
  apply decide_eq_true
  intro h0
  exact h (h0 ▸ hg)

/-- Refuted: empty lists between semicolons are left out, always, so that the lists after them move forward. -/
theorem C101_groups_refuted {a b : List (List Int)} :
    str2list2Int (.text (groupsText (a ++ [] :: b))) = str2list2Int (.text (groupsText (a ++ b))) ∧
    ∃ r, str2list2Int (.text (groupsText (a ++ [] :: b))) = some r ∧ r.length < (a ++ [] :: b).length ∧ [] ∉ r := by
  constructor
  · rw [groups_eq, groups_eq]
    simp
  · refine ⟨_, groups_eq _, ?_, ?_⟩
    · rw [List.filter_append, List.filter_cons, if_neg (by simp)]
      have h1 := List.length_filter_le (fun g : List Int => decide (g ≠ [])) a
      have h2 := List.length_filter_le (fun g : List Int => decide (g ≠ [])) b
      simp only [List.length_append, List.length_cons]
      omega
    · intro h
      have := (List.mem_filter.1 h).2
      simp at this

/-- Lists of lists of texts arrive as written.  Missing for the full property: empty lists and lists of one empty text
(C101_names_refuted). -/
theorem C101_names_partial {l : List (List Str)} (h : ∀ g ∈ l, ∀ t ∈ g, ';' ∉ t ∧ ',' ∉ t) (hne : ∀ g ∈ l, g ≠ [] ∧ g ≠ [[]]) :
    str2list2 (.text (namesText l)) = l ∧ str2list2 (.value l) = l := by
  refine ⟨?_, rfl⟩
  rw [names_eq h, List.filter_eq_self.2]
  exact fun g hg => decide_eq_true (hne g hg)

/-- Refuted: lists with nothing in them or only an empty text are left out. -/
theorem C101_names_refuted {a b : List (List Str)} (h : ∀ g ∈ a ++ b, ∀ t ∈ g, ';' ∉ t ∧ ',' ∉ t) {g : List Str} (hg : g = [] ∨ g = [[]]) :
    str2list2 (.text (namesText (a ++ g :: b))) = str2list2 (.text (namesText (a ++ b))) ∧
    str2list2 (.text (namesText (a ++ g :: b))) ≠ a ++ g :: b := by
  have h' : ∀ x ∈ a ++ g :: b, ∀ t ∈ x, ';' ∉ t ∧ ',' ∉ t := by
    intro x hx t ht
    rcases List.mem_append.1 hx with hx | hx
    · exact h x (List.mem_append_left _ hx) t ht
    · rcases List.mem_cons.1 hx with rfl | hx
      · rcases hg with rfl | rfl
        · simp at ht
        · rw [List.mem_singleton.1 ht]
          simp
      · exact h x (List.mem_append_right _ hx) t ht
  have hf : decide (g ≠ [] ∧ g ≠ [[]]) = false := by
    rcases hg with rfl | rfl <;> simp
  constructor
  · rw [names_eq h', names_eq h]
    rw [List.filter_append, List.filter_append, List.filter_cons, hf]
    simp
  · rw [names_eq h']
    intro he
    have hm : g ∈ (a ++ g :: b).filter fun g => decide (g ≠ [] ∧ g ≠ [[]]) := by
      rw [he]
      simp
    have := (List.mem_filter.1 hm).2
    rw [hf] at this
    cases this

/-- A list of texts, as the names of hosts, arrives as written.  Missing for the full property: the empty list and values that are
lists (C101_strs_refuted). -/
theorem C101_strs_partial {l : List Str} (hne : l ≠ []) (h : ∀ t ∈ l, ',' ∉ t) : str2listStr (.text (joinFields ',' l)) = some l := by
  show some (split ',' (joinFields ',' l)) = _
  rw [split_fields hne h]

/-- Refuted: no texts arrive as one empty text, as the default for the hosts of parameter servers does; a value that is a list
already fails, although the other conversions keep it. -/
theorem C101_strs_refuted : str2listStr (.text (joinFields ',' [])) = some [[]] ∧ (∀ l, str2listStr (.value l) = none) :=
  ⟨rfl, fun _ => rfl⟩

/-- A flag is set by the words yes, true, t, y and 1 in any spelling and by no other text. -/
theorem C101_bool_true (s : Str) : str2bool (.text s) = some true ↔ ∃ w ∈ yesWords, Spelling w s := by
  have hl : ∀ w ∈ yesWords, ∀ c ∈ w, c ∈ letters := by decide +kernel
  have he : yesWords = [['y', 'e', 's'], ['t', 'r', 'u', 'e'], ['t'], ['y'], ['1']] := by decide +kernel
  show (if s.map Char.toLower ∈ _ then some true else _) = some true ↔ _
  rw [← he]
  constructor
  · intro h
    by_cases hm : s.map Char.toLower ∈ yesWords
    · exact ⟨_, hm, (spelling_iff (hl _ hm)).2 rfl⟩
    · rw [if_neg hm] at h
      split at h <;> cases h
  · rintro ⟨w, hw, hs⟩
    have := (spelling_iff (hl w hw)).1 hs
    rw [if_pos (this ▸ hw)]

/-- A flag is cleared by the words no, false, f, n and 0 in any spelling and by no other text; all other texts are refused, and a
flag that is a value already stays as it is. -/
theorem C101_bool_false (s : Str) : (str2bool (.text s) = some false ↔ ∃ w ∈ noWords, Spelling w s) ∧
    (str2bool (.text s) = none ↔ ∀ w ∈ yesWords ++ noWords, ¬ Spelling w s) ∧ ∀ b, str2bool (.value b) = some b := by
  have hl : ∀ w ∈ yesWords ++ noWords, ∀ c ∈ w, c ∈ letters := by decide +kernel
  have he : yesWords = [['y', 'e', 's'], ['t', 'r', 'u', 'e'], ['t'], ['y'], ['1']] := by decide +kernel
  have hn : noWords = [['n', 'o'], ['f', 'a', 'l', 's', 'e'], ['f'], ['n'], ['0']] := by decide +kernel
  have hd : ∀ w ∈ noWords, w ∉ yesWords := by decide +kernel
  have hmem : ∀ ws : List Str, (∀ w ∈ ws, ∀ c ∈ w, c ∈ letters) → ((∃ w ∈ ws, Spelling w s) ↔ s.map Char.toLower ∈ ws) := by
    intro ws hws
    constructor
    · rintro ⟨w, hw, hs⟩
      rw [(spelling_iff (hws w hw)).1 hs]
      exact hw
    · exact fun hm => ⟨_, hm, (spelling_iff (hws _ hm)).2 rfl⟩
  have hy := hmem yesWords fun w hw => hl w (List.mem_append_left _ hw)
  have hno := hmem noWords fun w hw => hl w (List.mem_append_right _ hw)
  have hall := hmem (yesWords ++ noWords) hl
  have hdef : str2bool (.text s) = if s.map Char.toLower ∈ yesWords then some true else if s.map Char.toLower ∈ noWords then some false else none := by
    rw [he, hn]
    rfl
  refine ⟨?_, ?_, fun _ => rfl⟩
  · rw [hno, hdef]
    by_cases h1 : s.map Char.toLower ∈ yesWords
    · rw [if_pos h1]
      constructor
      · intro h; cases h
      · intro h; exact absurd h1 (hd _ h)
    · rw [if_neg h1]
      by_cases h2 : s.map Char.toLower ∈ noWords
      · simp [h2]
      · simp [h2]
  · have : (∀ w ∈ yesWords ++ noWords, ¬ Spelling w s) ↔ ¬ ∃ w ∈ yesWords ++ noWords, Spelling w s := by
      constructor
      · rintro h ⟨w, hw, hs⟩
        exact h w hw hs
      · exact fun h w hw hs => h ⟨w, hw, hs⟩
    rw [this, hall, hdef, List.mem_append]
    by_cases h1 : s.map Char.toLower ∈ yesWords
    · simp [h1]
    · by_cases h2 : s.map Char.toLower ∈ noWords
      · simp [h1, h2]
      · simp [h1, h2]

/-- A vector or matrix written as text is read back by splitting at commas and blanks.  Missing for the full property: arrays without
elements and the number of dimensions (C101_array_refuted). -/
theorem C101_array_partial {rows : List (List Str)} (hne : rows ≠ []) (hr : [] ∉ rows) (h : ∀ r ∈ rows, ∀ t ∈ r, ',' ∉ t ∧ ' ' ∉ t) :
    ((vec2str (.two rows)).map fun s => (split ',' s).map (split ' ')) = some rows ∧
    ∀ r ∈ rows, (vec2str (.one r)).map (split ' ') = some r := by
  have hrow : ∀ r ∈ rows, split ' ' (joinFields ' ' r) = r := fun r hm =>
    split_fields (fun h0 => hr (h0 ▸ hm)) fun t ht => (h r hm t ht).2
  constructor
  · show some ((split ',' (join ',' (rows.map (join ' ')))).map (split ' ')) = _
    have e : rows.map (join ' ') = rows.map (joinFields ' ') := List.map_congr_left fun r _ => join_eq ' ' r
    rw [join_eq, e, split_fields (by simpa using hne) (by
      intro t ht
      obtain ⟨r, hm, rfl⟩ := List.mem_map.1 ht
      exact row_clean fun t ht => (h r hm t ht).1), List.map_map]
    congr 1
    conv => rhs; rw [← List.map_id rows]
    exact List.map_congr_left hrow
  · intro r hm
    show some (split ' ' (join ' ' r)) = _
    rw [join_eq, hrow r hm]

/-- Refuted: a vector and the matrix with this row have the same text, and so do all matrices with one row or none that have no
elements. -/
theorem C101_array_refuted (r : List Str) : vec2str (.one r) = vec2str (.two [r]) ∧ vec2str (.two []) = vec2str (.two [[]]) :=
  ⟨rfl, rfl⟩

/-! Partitions of servers -/

/-- A server loads the partitions listed for it. -/
theorem C101_server_list (l : List Int) : partitions (some (commaText l)) none = some l := (C101_ints l).1

theorem Args.group_range (a b c : Int) : partitions none (some (commaText [a, b, c])) = range a c b := by
  show (str2listInt (.text (commaText [a, b, c]))).bind _ = _
  rw [(C101_ints [a, b, c]).1]
  rfl

/-- What the server `i` of `n` loads. -/
def Args.load (n p i : Nat) : List Int := (List.range (((p : Int) - i + n - 1) / n).toNat).map fun (k : Nat) => (i : Int) + k * n

theorem Args.mem_load {n p i : Nat} (hn : 0 < n) (x : Int) : x ∈ load n p i ↔ ∃ k : Nat, x = i + k * n ∧ x < p := by
  simp only [load, List.mem_map, List.mem_range]
  constructor
  · rintro ⟨k, hk, rfl⟩
    refine ⟨k, rfl, ?_⟩
    have h1 : (k : Int) < ((p : Int) - i + n - 1) / n := by omega
    have h2 : (k : Int) + 1 ≤ ((p : Int) - i + n - 1) / n := h1
    rw [Int.le_ediv_iff_mul_le (by omega)] at h2
    rw [Int.add_mul] at h2
    omega
  · rintro ⟨k, rfl, hx⟩
    refine ⟨k, ?_, rfl⟩
    have h2 : (k : Int) + 1 ≤ ((p : Int) - i + n - 1) / n := by
      rw [Int.le_ediv_iff_mul_le (by omega), Int.add_mul]
      omega
    omega

theorem Args.load_nodup {n p i : Nat} (hn : 0 < n) : (load n p i).Nodup := by
  unfold load List.Nodup
  rw [List.pairwise_map]
  refine List.Pairwise.imp ?_ (List.nodup_range (n := (((p : Int) - i + n - 1) / n).toNat))
  intro a b hab h
  have h1 : (a : Int) * n = b * n := by omega
  have h2 : (a : Int) = b := Int.eq_of_mul_eq_mul_right (by omega) h1
  omega

/-- The servers of a group, started with their index, the number of servers and the number of partitions, load every partition
exactly once and nothing else, for any numbers of servers and partitions. -/
theorem C101_group {n p : Nat} (hn : 0 < n) : ∃ load : Nat → List Int,
    (∀ i, i < n → partitions none (some (commaText [(i : Int), (n : Int), (p : Int)])) = some (load i)) ∧
    ((List.range n).flatMap load).Perm ((List.range p).map Int.ofNat) := by
  refine ⟨Args.load n p, ?_, ?_⟩
  · intro i _
    rw [Args.group_range]
    unfold Args.range
    rw [if_neg (by omega), if_pos (by omega)]
    rfl
  · have h1 : ((List.range n).flatMap (Args.load n p)).Nodup := by
      unfold List.Nodup
      rw [List.pairwise_flatMap]
      refine ⟨fun i _ => Args.load_nodup hn, ?_⟩
      refine List.Pairwise.imp_of_mem ?_ (List.nodup_range (n := n))
      intro i j hi hj hij x hx y hy hxy
      rw [List.mem_range] at hi hj
      obtain ⟨k, rfl, -⟩ := (Args.mem_load hn x).1 hx
      obtain ⟨l, hy, -⟩ := (Args.mem_load hn y).1 hy
      rw [← hxy] at hy
      have e : i + k * n = j + l * n := by exact_mod_cast hy
      have e1 : (i + k * n) % n = i := by rw [Nat.add_mul_mod_self_right, Nat.mod_eq_of_lt hi]
      have e2 : (j + l * n) % n = j := by rw [Nat.add_mul_mod_self_right, Nat.mod_eq_of_lt hj]
      rw [e, e2] at e1
      exact hij e1.symm
    have h2 : ((List.range p).map Int.ofNat).Nodup := by
      unfold List.Nodup
      rw [List.pairwise_map]
      exact List.Pairwise.imp (fun h h' => h (Int.ofNat.inj h')) List.nodup_range
    rw [List.perm_ext_iff_of_nodup h1 h2]
    intro x
    rw [List.mem_flatMap, List.mem_map]
    constructor
    · rintro ⟨i, -, hx⟩
      obtain ⟨k, rfl, hlt⟩ := (Args.mem_load hn x).1 hx
      have e : (i : Int) + k * n = ((i + k * n : Nat) : Int) := by simp
      rw [e] at hlt ⊢
      exact ⟨i + k * n, List.mem_range.2 (by omega), rfl⟩
    · rintro ⟨q, hq, rfl⟩
      rw [List.mem_range] at hq
      refine ⟨q % n, List.mem_range.2 (Nat.mod_lt _ hn), (Args.mem_load hn _).2 ⟨q / n, ?_, ?_⟩⟩
      · have := Nat.mod_add_div q n
        rw [Nat.mul_comm] at this
        show (q : Int) = _
        have e : ((q % n : Nat) : Int) + ((q / n : Nat) : Int) * n = ((q % n + q / n * n : Nat) : Int) := by simp
        rw [e, this]
      · show (q : Int) < p
        omega

/-- A group that is not given by three numbers, or with no servers, is refused. -/
theorem C101_group_refused (l : List Int) (h : l.length ≠ 3 ∨ l[1]? = some 0) : partitions none (some (commaText l)) = none := by
  show (str2listInt (.text (commaText l))).bind _ = none
  rw [(C101_ints l).1, Option.bind_some]
  rcases h with h | h
  · match l with
    | [] => rfl
    | [a] => rfl
    | [a, b] => rfl
    | [a, b, c] => exact absurd rfl h
    | a :: b :: c :: d :: l => rfl
  · match l with
    | [] => rfl
    | [a] => rfl
    | [a, b] => rfl
    | [a, b, c] =>
      have : b = 0 := by simpa using h
      subst this
      rfl
    | a :: b :: c :: d :: l => rfl

/-! Cases that meet the hypotheses -/

example : str2listInt (.text ['3', ',', '-', '1', '2', ',', '0']) = some [3, -12, 0] := by
  have e : commaText [3, -12, 0] = ['3', ',', '-', '1', '2', ',', '0'] := by decide +kernel
  rw [← e]
  exact (C101_ints [3, -12, 0]).1
example : str2list2Int (.text ['1', ';', '2', ';', '3', ',', '4']) = some [[1], [2], [3, 4]] := (C101_groups_partial (l := [[1], [2], [3, 4]]) (by decide)).1
example : str2list2Int (.text ['0', ';', ';', '1']) = some [[0], [1]] := (C101_groups_refuted (a := [[0]]) (b := [[1]])).1
example : str2list2 (.text ['q', ';', 'k', ',', 's']) = [[['q']], [['k'], ['s']]] :=
  (C101_names_partial (l := [[['q']], [['k'], ['s']]]) (by decide) (by decide)).1
example : str2list2 (.text ['q', ';', ';', 's']) ≠ [[['q']], [[]], [['s']]] :=
  (C101_names_refuted (a := [[['q']]]) (b := [[['s']]]) (g := [[]]) (by decide) (Or.inr rfl)).2
example : str2listStr (.text ['h', ':', '1', ',', 'k', ':', '2']) = some [['h', ':', '1'], ['k', ':', '2']] :=
  C101_strs_partial (l := [['h', ':', '1'], ['k', ':', '2']]) (by decide) (by decide)
example : str2bool (.text ['Y', 'e', 'S']) = some true := (C101_bool_true _).2 ⟨['y', 'e', 's'], by decide +kernel, (spelling_iff (by decide)).2 (by decide +kernel)⟩
example : str2bool (.text ['F', 'a', 'l', 's', 'e']) = some false := (C101_bool_false _).1.2 ⟨['f', 'a', 'l', 's', 'e'], by decide +kernel, (spelling_iff (by decide)).2 (by decide +kernel)⟩
example : ∀ w ∈ yesWords ++ noWords, ¬ Spelling w ['o', 'n'] := (C101_bool_false ['o', 'n']).2.1.1 (by decide +kernel)
example : ((vec2str (.two [[['1'], ['2']], [['3'], ['4']]])).map fun s => (split ',' s).map (split ' ')) = some [[['1'], ['2']], [['3'], ['4']]] :=
  (C101_array_partial (by decide) (by decide) (by decide)).1
example : partitions none (some ['1', ',', '3', ',', '8']) = some [1, 4, 7] := by decide +kernel
example : ∃ load : Nat → List Int, (∀ i : Nat, i < 3 → partitions none (some (commaText [(i : Int), 3, 8])) = some (load i)) ∧
    ((List.range 3).flatMap load).Perm ((List.range 8).map Int.ofNat) := C101_group (n := 3) (p := 8) (by omega)
example : partitions none (some ['1', ',', '3']) = none := C101_group_refused [1, 3] (Or.inl (by decide))

end DeepGNN
