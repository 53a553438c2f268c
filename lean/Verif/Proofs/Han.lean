import Verif.Spec.Han
import Verif.Proofs.Gat
import Verif.Proofs.Samplers
import Verif.Props.C62

/-
Attention encoders, node by node.
-/

namespace DeepGNN.Han

open DeepGNN.Sage DeepGNN.Gat Arith Analysis

theorem chunks_lengths {β : Type} {k : Nat} (l : List β) : ∀ c ∈ chunks k l, c.length = k := by
  intro c hc
  obtain ⟨i, hi, rfl⟩ := List.mem_map.mp hc
  rw [List.length_take, List.length_drop]
  have h1 : (i + 1) * k ≤ l.length / k * k := Nat.mul_le_mul_right k (List.mem_range.mp hi)
  have h2 := Nat.div_mul_le_self l.length k
  rw [Nat.add_mul, Nat.one_mul] at h1
  omega

theorem flatten_chunks {β : Type} {k : Nat} {l : List β} (h : l.length % k = 0) : (chunks k l).flatten = l := by
  have e := Samplers.flatMap_chunks l k (l.length / k)
  rw [List.flatMap_def] at e
  show ((List.range (l.length / k)).map fun i => (l.drop (i * k)).take k).flatten = l
  rw [e, Nat.div_mul_cancel (Nat.dvd_of_mod_eq_zero h), List.take_length]

theorem chunks_map {β γ : Type} (f : β → γ) (k : Nat) (l : List β) : chunks k (l.map f) = (chunks k l).map (List.map f) := by
  unfold chunks
  rw [List.length_map, List.map_map]
  apply List.map_congr_left
  intro i _
  simp [List.map_take, List.map_drop]

variable {α : Type} [Analysis α]

theorem reshape_rows {n w : Nat} (hn : 0 < n) (hw : 0 < w) {t : Mat α} (ht : ∀ v ∈ t, v.length = w) :
    reshape n w t = if t.length % n = 0 then some (chunks n t) else none := by
  by_cases h : t.length % n = 0
  · rw [if_pos h]
    have e := reshape_flatten (α := α) hn hw (P := chunks n t) fun p hp => ⟨chunks_lengths t p hp, fun v hv => ht v (by
      rw [← flatten_chunks h]; exact List.mem_flatten.mpr ⟨p, hp, hv⟩)⟩
    rw [flatten_chunks h] at e
    exact e
  · rw [if_neg h]
    unfold reshape
    simp only
    rw [if_neg (Nat.mul_ne_zero (by omega) (by omega)), if_pos]
    rw [flatten_length_const ht, Nat.mul_mod_mul_right]
    exact Nat.mul_ne_zero h (by omega)

theorem softmaxRow_eq (l : List α) : softmaxRow l = Spec.softmax l := by
  rw [softmax_eq]; rfl

theorem score_eq {ws : Vec α} {b : α} {x : Vec α} (h : ws.length = x.length) : score ws b x = some (add (total (List.zipWith mul x ws)) b) := by
  unfold score
  rw [dense_eq (by simpa using h)]
  rfl

theorem linear_length (w : Mat α) (x : Vec α) : (Spec.linear w x).length = w.length := by simp [Spec.linear]

theorem zipWith_fun_map {β γ δ ε : Type} (f : β → δ → ε) (g : γ → δ) : ∀ (l : List β) (m : List γ),
    List.zipWith (fun a c => f a (g c)) l m = List.zipWith f l (m.map g)
  | [], _ => by simp
  | _ :: _, [] => by simp
  | a :: l, c :: m => by simp [zipWith_fun_map f g l m]

theorem attSeq_eq {f w : Nat} {h : Head α} (hf : Spec.HeadFits f w h) {seq : Mat α} (hs : ∀ v ∈ seq, v.length = f) :
    attSeq h seq = some (seq.map fun x => Spec.attend h x seq) := by
  obtain ⟨h1, h2, h3, h4, h5⟩ := hf
  unfold attSeq
  rw [Sage.mapM_map (g := Spec.linear h.w) fun x hx => dense_eq fun col hc => by rw [h2 col hc, hs x hx], Option.bind_some]
  have hl : ∀ y ∈ seq.map (Spec.linear h.w), y.length = w := by
    intro y hy
    obtain ⟨x, -, rfl⟩ := List.mem_map.mp hy
    rw [linear_length, h1]
  rw [Sage.mapM_map (g := fun y => add (total (List.zipWith mul y h.left)) h.leftBias) fun y hy => score_eq (by rw [hl y hy, h3]), Option.bind_some,
    Sage.mapM_map (g := fun y => add (total (List.zipWith mul y h.right)) h.rightBias) fun y hy => score_eq (by rw [hl y hy, h4]), Option.bind_some,
    if_pos (by rw [h5, h1])]
  simp only [List.map_map]
  congr 1
  apply List.map_congr_left
  intro x _
  simp only [Function.comp_apply, Spec.attend, Spec.weightedSum, softmaxRow_eq]
  congr 2
  apply List.map_congr_left
  intro q _
  rw [zipWith_fun_map, List.map_map, List.map_map]
  rfl

theorem attHeader_eq {f w : Nat} {h : Head α} (hf : Spec.HeadFits f w h) {batch : List (Mat α)} (hs : ∀ seq ∈ batch, ∀ v ∈ seq, v.length = f) :
    attHeader h batch = some (batch.map fun seq => seq.map fun x => Spec.attend h x seq) :=
  Sage.mapM_map fun seq hseq => attSeq_eq hf (hs seq hseq)

/-- Every row of a batch with the matrix it is in. -/
def rowsIn (batch : List (Mat α)) : List (Vec α × Mat α) := (batch.map fun seq => seq.map fun x => (x, seq)).flatten

theorem rowsIn_map {β : Type} (F : Vec α → Mat α → β) (batch : List (Mat α)) :
    (rowsIn batch).map (fun p => F p.1 p.2) = (batch.map fun seq => seq.map fun x => F x seq).flatten := by
  unfold rowsIn
  rw [List.map_flatten, List.map_map]
  congr 1
  apply List.map_congr_left
  intro seq _
  simp [List.map_map, Function.comp_def]

theorem zipWith_maps {β γ δ ε : Type} (f : γ → δ → ε) (g : β → γ) (k : β → δ) : ∀ l : List β,
    List.zipWith f (l.map g) (l.map k) = l.map fun a => f (g a) (k a)
  | [] => rfl
  | a :: l => by simp [zipWith_maps f g k l]

theorem concat_fold {β : Type} (C : List (List β)) : ∀ (fs : List (β → Vec α)) (g : β → Vec α),
    (fs.map fun f => C.map (List.map f)).foldl (List.zipWith (List.zipWith (· ++ ·))) (C.map (List.map g)) =
      C.map (List.map fun x => g x ++ (fs.map fun f => f x).flatten)
  | [], g => by simp
  | f :: fs, g => by
    rw [List.map_cons, List.foldl_cons, zipWith_maps]
    have e : (C.map fun a => List.zipWith (· ++ ·) (a.map g) (a.map f)) = C.map (List.map fun x => g x ++ f x) := by
      apply List.map_congr_left
      intro a _
      rw [zipWith_maps]
    rw [e, concat_fold C fs]
    apply List.map_congr_left
    intro a _
    apply List.map_congr_left
    intro x _
    simp

theorem rowsIn_length (batch : List (Mat α)) : (rowsIn batch).length = batch.flatten.length := by
  have e := congrArg List.length (rowsIn_map (fun x _ => x) batch)
  rw [List.length_map] at e
  rw [e]
  simp

theorem multiHead_eq {f w n : Nat} (hn : 0 < n) (hw : 0 < w) {heads : List (Head α)} (hne : heads ≠ []) (hf : ∀ h ∈ heads, Spec.HeadFits f w h)
    {batch : List (Mat α)} (hs : ∀ seq ∈ batch, ∀ v ∈ seq, v.length = f) :
    multiHead n w heads batch =
      if batch.flatten.length % n = 0 then some (chunks n ((rowsIn batch).map fun p => Spec.sideBySide heads p.1 p.2)) else none := by
  have one : ∀ h ∈ heads, ((attHeader h batch).bind fun t => reshape n w t.flatten) =
      if batch.flatten.length % n = 0 then some ((chunks n (rowsIn batch)).map (List.map fun p => Spec.attend h p.1 p.2)) else none := by
    intro h hh
    rw [attHeader_eq (hf h hh) hs, Option.bind_some, reshape_rows hn hw, ← rowsIn_map (Spec.attend h), chunks_map, List.length_map, rowsIn_length]
    intro v hv
    rw [← rowsIn_map (Spec.attend h)] at hv
    obtain ⟨p, -, rfl⟩ := List.mem_map.mp hv
    exact attend_length (hf h hh) _ _
  unfold multiHead
  by_cases hd : batch.flatten.length % n = 0
  · rw [if_pos hd, Sage.mapM_map (g := fun h => (chunks n (rowsIn batch)).map (List.map fun p => Spec.attend h p.1 p.2)) fun h hh => by
      rw [one h hh, if_pos hd], Option.bind_some]
    cases heads with
    | nil => exact absurd rfl hne
    | cons h hs' =>
      rw [List.map_cons, concatLast, chunks_map]
      have e := concat_fold (α := α) (chunks n (rowsIn batch)) (hs'.map fun h p => Spec.attend h p.1 p.2) fun p => Spec.attend h p.1 p.2
      rw [List.map_map] at e
      have e2 : (hs'.map fun h => (chunks n (rowsIn batch)).map (List.map fun p => Spec.attend h p.1 p.2)) =
          hs'.map ((fun f => (chunks n (rowsIn batch)).map (List.map f)) ∘ fun h (p : Vec α × Mat α) => Spec.attend h p.1 p.2) := rfl
      rw [e2, e]
      congr 1
      apply List.map_congr_left
      intro c _
      apply List.map_congr_left
      intro p _
      simp [Spec.sideBySide, List.map_map, Function.comp_def]
  · rw [if_neg hd]
    cases heads with
    | nil => exact absurd rfl hne
    | cons h hs' =>
      rw [List.mapM_cons, one h List.mem_cons_self, if_neg hd]
      rfl

theorem sideBySide_length {f w : Nat} {heads : List (Head α)} (hf : ∀ h ∈ heads, Spec.HeadFits f w h) (x : Vec α) (hood : List (Vec α)) :
    (Spec.sideBySide heads x hood).length = heads.length * w := by
  unfold Spec.sideBySide
  rw [flatten_length_const (k := w), List.length_map]
  intro l hl
  obtain ⟨h, hh, rfl⟩ := List.mem_map.mp hl
  exact attend_length (hf h hh) _ _

/-- One layer of heads and the first row of every matrix. -/
theorem layer_first {f w n m : Nat} (hn : 0 < n) (hw : 0 < w) {heads : List (Head α)} (hne : heads ≠ []) (hf : ∀ h ∈ heads, Spec.HeadFits f w h)
    {batch : List (Mat α)} (hs : ∀ seq ∈ batch, seq.length = m + 1 ∧ ∀ v ∈ seq, v.length = f) :
    ((multiHead n w heads batch).bind fun h1 => (reshape (m + 1) (w * heads.length) h1.flatten).map fun out => out.map fun x => x.headD []) =
      if batch.length * (m + 1) % n = 0 then some (batch.map fun seq => Spec.sideBySide heads (seq.headD []) seq) else none := by
  have hlen : batch.flatten.length = batch.length * (m + 1) := flatten_length_const fun l hl => (hs l hl).1
  rw [multiHead_eq hn hw hne hf fun seq h => (hs seq h).2, hlen]
  by_cases hd : batch.length * (m + 1) % n = 0
  · rw [if_pos hd, if_pos hd, Option.bind_some, flatten_chunks (by rw [List.length_map, rowsIn_length, hlen]; exact hd), rowsIn_map (Spec.sideBySide heads),
      reshape_flatten (by omega) (Nat.mul_pos hw (List.length_pos_iff.mpr hne))]
    · rw [Option.map_some, List.map_map]
      congr 1
      apply List.map_congr_left
      intro seq hseq
      have h0 := (hs seq hseq).1
      cases seq with
      | nil => simp at h0
      | cons x xs => rfl
    · intro p hp
      obtain ⟨seq, hseq, rfl⟩ := List.mem_map.mp hp
      refine ⟨by rw [List.length_map, (hs seq hseq).1], fun v hv => ?_⟩
      obtain ⟨x, -, rfl⟩ := List.mem_map.mp hv
      rw [sideBySide_length hf, Nat.mul_comm]
  · rw [if_neg hd, if_neg hd]
    rfl

theorem simpleAtt_eq {w : Nat} {s : Semantic α} (hf : Spec.SemanticFits w s) {rows : Mat α} (hne : rows ≠ []) (hr : ∀ v ∈ rows, v.length = w) :
    simpleAtt s rows = some (Spec.semanticAverage s w rows) := by
  obtain ⟨h1, h2, h3⟩ := hf
  unfold simpleAtt
  rw [Sage.mapM_map (g := Spec.linear s.w) fun x hx => dense_eq fun col hc => by rw [h1 col hc, hr x hx], Option.bind_some, List.map_map,
    Sage.mapM_map (g := fun y => [total (List.zipWith mul y s.u)]) fun y hy => ?_]
  · rw [Option.map_some]
    have hw : (rows.headD []).length = w := by
      cases rows with
      | nil => exact absurd rfl hne
      | cons x xs => exact hr x List.mem_cons_self
    simp only
    rw [hw, List.map_map, List.map_map, softmaxRow_eq]
    congr 1
    unfold Spec.semanticAverage
    apply List.map_congr_left
    intro q _
    rw [List.zipWith_map_left]
    rfl
  · obtain ⟨x, -, rfl⟩ := List.mem_map.mp hy
    rw [dense_eq]
    · rfl
    · intro col hc
      rw [List.mem_singleton.mp hc]
      simp [linear_length, h2, h3]

theorem prod_fold : ∀ (l : List Nat) (a : Nat), l.foldl (· * ·) a = a * l.foldl (· * ·) 1
  | [], a => by simp
  | b :: l, a => by
    rw [List.foldl_cons, List.foldl_cons, prod_fold l (a * b), prod_fold l (1 * b), Nat.one_mul, Nat.mul_assoc]

theorem prod_cons (b : Nat) (l : List Nat) : prod (b :: l) = b * prod l := by
  unfold prod
  rw [List.foldl_cons, prod_fold, Nat.one_mul]

theorem prod_eq : ∀ l : List Nat, prod l = Spec.product l
  | [] => rfl
  | b :: l => by rw [prod_cons, prod_eq l, Spec.product]

theorem prod_pos : ∀ {l : List Nat}, (∀ x ∈ l, 0 < x) → 0 < prod l
  | [], _ => by decide
  | b :: l, h => by
    rw [prod_cons]
    exact Nat.mul_pos (h b List.mem_cons_self) (prod_pos fun x hx => h x (List.mem_cons_of_mem _ hx))

theorem all2_split {β γ : Type} {P : β → γ → Prop} : ∀ {rows : List (List β)} {G : List γ}, All2 P rows.flatten G →
    ∃ GG : List (List γ), GG.flatten = G ∧ All2 (All2 P) rows GG
  | [], _, h => by cases h; exact ⟨[], rfl, .nil⟩
  | row :: rows, G, h => by
    have key : ∀ (l m : List β) (G : List γ), All2 P (l ++ m) G → ∃ a b, G = a ++ b ∧ All2 P l a ∧ All2 P m b := by
      intro l
      induction l with
      | nil => intro m G h; exact ⟨[], G, rfl, .nil, h⟩
      | cons x l ih =>
        intro m G h
        cases h with
        | cons hx hl =>
          obtain ⟨a, b, rfl, ha, hb⟩ := ih m _ hl
          exact ⟨_ :: a, b, rfl, .cons hx ha, hb⟩
    obtain ⟨a, b, rfl, ha, hb⟩ := key row rows.flatten G h
    obtain ⟨GG, rfl, hG⟩ := all2_split hb
    exact ⟨a :: GG, rfl, .cons ha hG⟩

theorem all2_of_get {β γ : Type} {P : β → γ → Prop} : ∀ {l : List β} {m : List γ}, m.length = l.length →
    (∀ (j : Nat) (a : β) (b : γ), l[j]? = some a → m[j]? = some b → P a b) → All2 P l m
  | [], [], _, _ => .nil
  | [], _ :: _, h, _ => by simp at h
  | _ :: _, [], h, _ => by simp at h
  | a :: l, b :: m, hl, h => .cons (h 0 a b rfl rfl) (all2_of_get (by simpa using hl) fun j x y hx hy => h (j + 1) x y (by simpa using hx) (by simpa using hy))

theorem all2_map_right {β γ δ : Type} {P : β → γ → Prop} {Q : β → δ → Prop} {f : γ → δ} (hpq : ∀ a b, P a b → Q a (f b)) {l : List β} {m : List γ}
    (h : All2 P l m) : All2 Q l (m.map f) := by
  induction h with
  | nil => exact .nil
  | cons h _ ih => exact .cons (hpq _ _ h) ih

theorem getLastD_cons_cons {β : Type} (a b : β) (l : List β) (d : β) : (a :: b :: l).getLastD d = (b :: l).getLastD d := by
  simp [List.getLastD_eq_getLast?, List.getLast?_cons_cons]

/-- What `sample_fanout` draws in the last hop, node by node. -/
theorem fanout_last {R : List Int → Int → Int → Prop} {sample : Nat → List Int → List Int → Nat → Option (List (List Int))}
    (hs : Spec.DrawsFrom R sample) : ∀ (metapath : List (List Int)) (counts : List Nat) (k : Nat) (nodes : List Int), metapath.length = counts.length →
    ∃ layers G, Multihop.fanoutLoop id sample k nodes (metapath.zip counts) = some layers ∧ (nodes :: layers).getLastD [] = G.flatten ∧
      All2 (fun n g => g.length = prod counts ∧ ∀ x ∈ g, Spec.ReachedBy R metapath n x) nodes G
  | [], [], k, nodes, _ => by
    refine ⟨[], nodes.map fun n => [n], rfl, ?_, all2_of_get (by simp) ?_⟩
    · show nodes = _
      induction nodes with
      | nil => rfl
      | cons a l ih => rw [List.map_cons, List.flatten_cons, ← ih]; rfl
    · intro j a b ha hb
      rw [List.getElem?_map, ha, Option.map_some, Option.some.injEq] at hb
      subst hb
      exact ⟨rfl, fun x hx => List.mem_singleton.mp hx⟩
  | [], _ :: _, _, _, h => by simp at h
  | _ :: _, [], _, _, h => by simp at h
  | t :: ts, c :: cs, k, nodes, h => by
    obtain ⟨rows, hr, hl, hrow⟩ := hs k nodes t c
    obtain ⟨layers, G, hG, hlast, hall⟩ := fanout_last hs ts cs (k + 1) rows.flatten (by simpa using h)
    obtain ⟨GG, rfl, hGG⟩ := all2_split hall
    refine ⟨rows.flatten :: layers, GG.map List.flatten, ?_, ?_, ?_⟩
    · rw [List.zip_cons_cons, Multihop.fanoutLoop, hr, Option.bind_some, List.map_id, hG]
      rfl
    · rw [getLastD_cons_cons, hlast, List.flatten_flatten]
    · have h1 : All2 (fun n row => row.length = c ∧ ∀ x ∈ row, R t n x) nodes rows := all2_of_get hl fun j a b ha hb => hrow j a b ha hb
      have key : ∀ (nodes : List Int) (rows : List (List Int)) (GG : List (List (List Int))),
          All2 (fun n row => row.length = c ∧ ∀ x ∈ row, R t n x) nodes rows →
          All2 (All2 fun n g => g.length = prod cs ∧ ∀ x ∈ g, Spec.ReachedBy R ts n x) rows GG →
          All2 (fun n g => g.length = prod (c :: cs) ∧ ∀ x ∈ g, Spec.ReachedBy R (t :: ts) n x) nodes (GG.map List.flatten) := by
        intro nodes rows GG h1
        induction h1 generalizing GG with
        | nil => intro h2; cases h2; exact .nil
        | cons hnr _ ih =>
          intro h2
          cases h2 with
          | cons hrg hrest =>
            refine .cons ⟨?_, fun x hx => ?_⟩ (ih _ hrest)
            · rw [flatten_length_const (k := prod cs) fun l hl => ?_, ← hrg.length, hnr.1, prod_cons]
              obtain ⟨a, -, ha⟩ := hrg.mem_right hl
              exact ha.1
            · obtain ⟨g, hg, hx⟩ := List.mem_flatten.mp hx
              obtain ⟨y, hy, hyg⟩ := hrg.mem_right hg
              exact ⟨y, hnr.2 y hy, hyg.2 x hx⟩
      exact key nodes rows GG h1 hGG

end DeepGNN.Han
