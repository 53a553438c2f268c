import Verif.Proofs.BertLoad

/-!
# C111: loading a pretrained checkpoint puts every weight where it belongs
-/

namespace DeepGNN

open BertLoad
open DeepGNN.Spec (LayerVar layerName layerParam KernelModel LayerVars LayerLoaded layerEntries dotted
  padded PlainVar Item)

/-- The three pieces of the weights (`true`) or biases (`false`). -/
def bertQ : Bool → Key | true => .qw | false => .qb
@[inherit_doc bertQ] def bertK : Bool → Key | true => .kw | false => .kb
@[inherit_doc bertQ] def bertV : Bool → Key | true => .vw | false => .vb

/-- Whether a piece belongs to the weights. -/
def bertW : Key → Bool
  | .qw | .kw | .vw => true
  | _ => false

/-- The variable of a piece. -/
def bertVar : Key → LayerVar
  | .qw => .queryWeight | .qb => .queryBias | .kw => .keyWeight
  | .kb => .keyBias | .vw => .valueWeight | .vb => .valueBias

/-- The parameter for weights or biases. -/
def bertAll : Bool → String | true => "attn_qkvw" | false => "attn_qkvb"

/-- The pieces among the variables read so far. -/
def bertTriple {α : Type} (b : Bool) (P : List (LayerVar × List α)) : Option (List α) :=
  triple (P.lookup (bertVar (bertQ b))) (P.lookup (bertVar (bertK b))) (P.lookup (bertVar (bertV b)))

/-- The state after some variables of layer `i`. -/
structure BertInv {α : Type} (i : Nat) (s0 : State α) (P : List (LayerVar × List α)) (s : State α) :
    Prop where
  qkv : ∀ k, s.qkv k = if (bertTriple (bertW k) P).isSome then none else P.lookup (bertVar k)
  all : ∀ b, s.value (layerParam i (bertAll b)) =
    (bertTriple b P).or (s0.value (layerParam i (bertAll b)))
  own : ∀ v a, v.own = some a →
    s.value (layerParam i a) = (P.lookup v).or (s0.value (layerParam i a))
  other : ∀ p, (∀ a, p ≠ layerParam i a) → s.value p = s0.value p

theorem bert_triple_none {α : Type} {i : Nat} {s0 s : State α} {P : List (LayerVar × List α)}
    (h : BertInv i s0 P s) (b : Bool) :
    triple (s.qkv (bertQ b)) (s.qkv (bertK b)) (s.qkv (bertV b)) = none := by
  have hw : bertW (bertQ b) = b ∧ bertW (bertK b) = b ∧ bertW (bertV b) = b := by cases b <;> decide
  rw [h.qkv, h.qkv, h.qkv, hw.1, hw.2.1, hw.2.2]
  cases hT : bertTriple b P with
  | none =>
    simp only [Option.isSome_none, Bool.false_eq_true, if_false]
    exact hT
  | some x => rfl

theorem bert_lookup_snoc {α : Type} (P : List (LayerVar × List α)) (w : LayerVar) (x : List α)
    (v : LayerVar) :
    (P ++ [(w, x)]).lookup v = (P.lookup v).or (if v = w then some x else none) := by
  rw [List.lookup_append]
  congr 1
  by_cases h : v = w
  · subst h; simp [List.lookup]
  · simp [List.lookup, h, beq_false_of_ne h]

theorem bert_param_inj {i : Nat} {a b : String} : layerParam i a = layerParam i b ↔ a = b := by
  constructor
  · intro h
    simp only [layerParam, List.cons.injEq, Seg.attr.injEq, true_and, and_true] at h
    exact String.toList_inj.1 h
  · rintro rfl; rfl

theorem bert_own_inj {v w : LayerVar} {a : String} (hv : v.own = some a) (hw : w.own = some a) :
    v = w := by
  cases v <;> simp only [LayerVar.own, Option.some.injEq, reduceCtorEq] at hv <;> subst hv <;>
    cases w <;> first | rfl | (simp [LayerVar.own] at hw)

theorem bert_own_all {v : LayerVar} {a : String} (hv : v.own = some a) (b : Bool) :
    a ≠ bertAll b := by
  cases v <;> simp only [LayerVar.own, Option.some.injEq, reduceCtorEq] at hv <;> subst hv <;>
    cases b <;> decide +kernel

/-- One more variable of the layer. -/
theorem bert_step {α : Type} {m : Model} (hm : KernelModel m) {zero : α} {diff i : Nat}
    (hi : i < m.layers) {s0 s : State α} {P : List (LayerVar × List α)} {w : LayerVar} {x : List α}
    (h : BertInv i s0 P s) (hnew : P.lookup w = none)
    (hown : ∀ a, w.own = some a → m.size (layerParam i a) = some x.length)
    (hall : ∀ b y, bertTriple b (P ++ [(w, x)]) = some y →
      m.size (layerParam i (bertAll b)) = some y.length) :
    ∃ s', loadOne m zero diff s (layerName i w, x) = some s' ∧ BertInv i s0 (P ++ [(w, x)]) s' := by
  have hno : ¬ (0 < diff ∧ (pos "embeddings.word_embeddings".toList (layerName i w)).isSome = true) := by
    rw [bert_no_embedding]; simp
  have hT := bert_triple_none h true
  have hF := bert_triple_none h false
  simp only [bertQ, bertK, bertV] at hT hF
  unfold loadOne
  dsimp only
  rw [bert_walk_layer hm hi]
  cases hw : w.own with
  | some a =>
    have hkeys : ∀ k, bertVar k ≠ w := by
      rintro k rfl; cases k <;> cases hw
    have hpaths : m.attrs (layerParam i a) = true := hm.own i w a hi hw
    have hlook : ∀ k, (P ++ [(w, x)]).lookup (bertVar k) = P.lookup (bertVar k) := by
      intro k; rw [bert_lookup_snoc, if_neg (hkeys k), Option.or_none]
    have htr : ∀ b, bertTriple b (P ++ [(w, x)]) = bertTriple b P := by
      intro b; simp only [bertTriple, hlook]
    simp only [hT, hF, Option.isSome_none, Bool.false_eq_true, if_false, finish, if_neg hno, hpaths,
      true_or, if_true, setData, hown a hw]
    refine ⟨_, rfl, ⟨fun k => ?_, fun b => ?_, fun v a' hv => ?_, fun p hp => ?_⟩⟩
    · rw [htr, hlook]; exact h.qkv k
    · rw [htr]
      dsimp only
      rw [if_neg (fun e => bert_own_all hw b (bert_param_inj.1 e).symm)]
      exact h.all b
    · dsimp only
      by_cases hvw : v = w
      · subst hvw
        rw [hw] at hv
        cases hv
        rw [if_pos rfl, bert_lookup_snoc, hnew, if_pos rfl]
        rfl
      · rw [if_neg (fun e => hvw (bert_own_inj hv (by rw [bert_param_inj.1 e]; exact hw))), bert_lookup_snoc,
          if_neg hvw, Option.or_none]
        exact h.own v a' hv
    · dsimp only
      rw [if_neg (hp a)]
      exact h.other p hp
  | none =>
    obtain ⟨k, hk⟩ : ∃ k, bertKey w = some k := by cases w <;> first | exact ⟨_, rfl⟩ | cases hw
    have hwk : w = bertVar k := by cases w <;> cases hk <;> rfl
    subst hwk
    rw [hk]
    dsimp only
    have hinj : ∀ j, bertVar j = bertVar k → j = k := by
      intro j hj; revert hj; cases j <;> cases k <;> decide
    have hTk : bertTriple (bertW k) P = none := by
      revert hnew
      cases k <;> intro hnew <;> simp only [bertTriple, bertW, bertQ, bertK, bertV, hnew, triple] <;>
        simp
    have hq : ∀ j, bertW j = bertW k →
        (if j = k then some x else s.qkv j) = (P ++ [(bertVar k, x)]).lookup (bertVar j) := by
      intro j hj
      by_cases hjk : j = k
      · subst hjk; rw [if_pos rfl, bert_lookup_snoc, hnew, if_pos rfl]; rfl
      · rw [if_neg hjk, h.qkv, hj, hTk, bert_lookup_snoc, if_neg (fun e => hjk (hinj j e)),
          Option.or_none]
        rfl
    have hq' : ∀ j, bertW j ≠ bertW k → (if j = k then some x else s.qkv j) = s.qkv j := by
      intro j hj
      rw [if_neg (fun e : j = k => hj (by rw [e]))]
    have hlook : ∀ j, bertW j ≠ bertW k →
        (P ++ [(bertVar k, x)]).lookup (bertVar j) = P.lookup (bertVar j) := by
      intro j hj
      rw [bert_lookup_snoc, if_neg (fun e => hj (by rw [hinj j e])), Option.or_none]
    have hother : ∀ b, b ≠ bertW k → bertTriple b (P ++ [(bertVar k, x)]) = bertTriple b P := by
      intro b hb
      simp only [bertTriple]
      rw [hlook (bertQ b) (by cases b <;> exact hb), hlook (bertK b) (by cases b <;> exact hb),
        hlook (bertV b) (by cases b <;> exact hb)]
    have hlookOwn : ∀ v a, v.own = some a →
        (P ++ [(bertVar k, x)]).lookup v = P.lookup v := by
      intro v a hv
      rw [bert_lookup_snoc, if_neg (by rintro rfl; rw [hw] at hv; cases hv), Option.or_none]
    cases hb : bertW k with
    | true =>
      rw [hb] at hq hq' hTk hother hlook
      rw [hq .qw rfl, hq .kw rfl, hq .vw rfl, hq' .qb (by decide), hq' .kb (by decide),
        hq' .vb (by decide), hF]
      have hdef : triple ((P ++ [(bertVar k, x)]).lookup (bertVar .qw))
          ((P ++ [(bertVar k, x)]).lookup (bertVar .kw))
          ((P ++ [(bertVar k, x)]).lookup (bertVar .vw)) = bertTriple true (P ++ [(bertVar k, x)]) :=
        rfl
      rw [hdef]
      cases hnow : bertTriple true (P ++ [(bertVar k, x)]) with
      | none =>
        dsimp only
        refine ⟨_, if_pos rfl, ⟨fun j => ?_, fun b => ?_, fun v a hv => ?_, fun p hp => ?_⟩⟩
        · dsimp only
          cases hj : bertW j with
          | true => rw [hq j hj, hnow]; rfl
          | false =>
            rw [hq' j (by rw [hj]; decide), h.qkv, hj, hother false (by decide),
              hlook j (by rw [hj]; decide)]
        · dsimp only
          cases b with
          | true => rw [hnow]; have := h.all true; rw [hTk] at this; exact this
          | false => rw [hother false (by decide)]; exact h.all false
        · rw [hlookOwn v a hv]; exact h.own v a hv
        · exact h.other p hp
      | some y =>
        have hp : m.attrs (bertLayer i ++ [.attr "attn_qkvw".toList]) = true := hm.weight i hi
        have hsz : m.size (bertLayer i ++ [.attr "attn_qkvw".toList]) = some y.length :=
          hall true y hnow
        simp only [finish, if_neg hno, hp, true_or, if_true, setData, hsz]
        have hpath : bertLayer i ++ [.attr "attn_qkvw".toList] = layerParam i (bertAll true) := rfl
        rw [hpath]
        refine ⟨_, rfl, ⟨fun j => ?_, fun b => ?_, fun v a hv => ?_, fun p hp => ?_⟩⟩
        · dsimp only
          cases hj : bertW j with
          | true =>
            rw [hnow, if_pos (by cases j <;> first | (simp; done) | cases hj)]
            rfl
          | false =>
            rw [if_neg (by cases j <;> first | (simp; done) | cases hj),
              hq' j (by rw [hj]; decide), h.qkv, hj, hother false (by decide),
              hlook j (by rw [hj]; decide)]
        · dsimp only
          cases b with
          | true => rw [hnow, if_pos rfl]; rfl
          | false =>
            rw [if_neg (fun e => absurd (bert_param_inj.1 e) (by decide)),
              hother false (by decide)]
            exact h.all false
        · dsimp only
          rw [if_neg (fun e => bert_own_all hv true (bert_param_inj.1 e)), hlookOwn v a hv]
          exact h.own v a hv
        · dsimp only
          rw [if_neg (hp _)]
          exact h.other p hp
    | false =>
      rw [hb] at hq hq' hTk hother hlook
      rw [hq .qb rfl, hq .kb rfl, hq .vb rfl, hq' .qw (by decide), hq' .kw (by decide),
        hq' .vw (by decide), hT]
      have hdef : triple ((P ++ [(bertVar k, x)]).lookup (bertVar .qb))
          ((P ++ [(bertVar k, x)]).lookup (bertVar .kb))
          ((P ++ [(bertVar k, x)]).lookup (bertVar .vb)) = bertTriple false (P ++ [(bertVar k, x)]) :=
        rfl
      rw [hdef]
      cases hnow : bertTriple false (P ++ [(bertVar k, x)]) with
      | none =>
        dsimp only
        refine ⟨_, if_pos rfl, ⟨fun j => ?_, fun b => ?_, fun v a hv => ?_, fun p hp => ?_⟩⟩
        · dsimp only
          cases hj : bertW j with
          | false => rw [hq j hj, hnow]; rfl
          | true =>
            rw [hq' j (by rw [hj]; decide), h.qkv, hj, hother true (by decide),
              hlook j (by rw [hj]; decide)]
        · dsimp only
          cases b with
          | false => rw [hnow]; have := h.all false; rw [hTk] at this; exact this
          | true => rw [hother true (by decide)]; exact h.all true
        · rw [hlookOwn v a hv]; exact h.own v a hv
        · exact h.other p hp
      | some y =>
        have hp : m.attrs (bertLayer i ++ [.attr "attn_qkvb".toList]) = true := hm.bias i hi
        have hsz : m.size (bertLayer i ++ [.attr "attn_qkvb".toList]) = some y.length :=
          hall false y hnow
        simp only [finish, if_neg hno, hp, true_or, if_true, setData, hsz]
        have hpath : bertLayer i ++ [.attr "attn_qkvb".toList] = layerParam i (bertAll false) := rfl
        rw [hpath]
        refine ⟨_, rfl, ⟨fun j => ?_, fun b => ?_, fun v a hv => ?_, fun p hp => ?_⟩⟩
        · dsimp only
          cases hj : bertW j with
          | false =>
            rw [hnow, if_pos (by cases j <;> first | (simp; done) | cases hj)]
            rfl
          | true =>
            rw [if_neg (by cases j <;> first | (simp; done) | cases hj),
              hq' j (by rw [hj]; decide), h.qkv, hj, hother true (by decide),
              hlook j (by rw [hj]; decide)]
        · dsimp only
          cases b with
          | false => rw [hnow, if_pos rfl]; rfl
          | true =>
            rw [if_neg (fun e => absurd (bert_param_inj.1 e) (by decide)),
              hother true (by decide)]
            exact h.all true
        · dsimp only
          rw [if_neg (fun e => bert_own_all hv false (bert_param_inj.1 e)), hlookOwn v a hv]
          exact h.own v a hv
        · dsimp only
          rw [if_neg (hp _)]
          exact h.other p hp

theorem bert_mem_lookup {α : Type} {E : List (LayerVar × List α)} (h : (E.map (·.1)).Nodup)
    {v : LayerVar} {x : List α} (hm : (v, x) ∈ E) : E.lookup v = some x := by
  induction E with
  | nil => cases hm
  | cons e E ih =>
    obtain ⟨w, y⟩ := e
    simp only [List.map_cons, List.nodup_cons] at h
    rcases List.mem_cons.1 hm with he | he
    · cases he; simp [List.lookup]
    · have hne : v ≠ w := by
        rintro rfl
        exact h.1 (List.mem_map.2 ⟨_, he, rfl⟩)
      rw [List.lookup, beq_false_of_ne hne]
      exact ih h.2 he

theorem bert_lookup_mem {α : Type} {E : List (LayerVar × List α)} {v : LayerVar} {x : List α}
    (h : E.lookup v = some x) : (v, x) ∈ E := by
  induction E with
  | nil => cases h
  | cons e E ih =>
    obtain ⟨w, y⟩ := e
    rw [List.lookup] at h
    split at h
    · rename_i hb
      cases h
      rw [eq_of_beq hb]; simp
    · exact List.mem_cons_of_mem _ (ih h)

theorem bert_triple_mem {α : Type} {b : Bool} {P E : List (LayerVar × List α)} (hsub : ∀ e ∈ P, e ∈ E)
    {y : List α} (h : bertTriple b P = some y) :
    ∃ q k v, (bertVar (bertQ b), q) ∈ E ∧ (bertVar (bertK b), k) ∈ E ∧ (bertVar (bertV b), v) ∈ E ∧
      y = q ++ k ++ v := by
  simp only [bertTriple, triple, Option.bind_eq_some_iff, Option.map_eq_some_iff] at h
  obtain ⟨q, hq, k, hk, v, hv, rfl⟩ := h
  exact ⟨q, k, v, hsub _ (bert_lookup_mem hq), hsub _ (bert_lookup_mem hk),
    hsub _ (bert_lookup_mem hv), rfl⟩

/-- All variables of a layer, one after the other. -/
theorem bert_block {α : Type} {m : Model} (hm : KernelModel m) {zero : α} {diff i : Nat}
    (hi : i < m.layers) {E : List (LayerVar × List α)} (hE : LayerVars m i E) {s0 : State α}
    (Q : List (LayerVar × List α)) : ∀ (P : List (LayerVar × List α)) (s : State α), P ++ Q = E →
    BertInv i s0 P s →
    ∃ s', (layerEntries i Q).foldlM (loadOne m zero diff) s = some s' ∧ BertInv i s0 E s' := by
  induction Q with
  | nil => intro P s hP h; simp only [List.append_nil] at hP; exact ⟨s, rfl, hP ▸ h⟩
  | cons e Q ih =>
    intro P s hP h
    obtain ⟨w, x⟩ := e
    have hmem : (w, x) ∈ E := by rw [← hP]; simp
    have hsub : ∀ e ∈ P ++ [(w, x)], e ∈ E := by
      intro e he
      rw [← hP]
      rcases List.mem_append.1 he with he | he
      · exact List.mem_append_left _ he
      · simp only [List.mem_singleton] at he
        subst he; simp
    have hnew : P.lookup w = none := by
      cases hl : P.lookup w with
      | none => rfl
      | some y =>
        exfalso
        have h1 := bert_lookup_mem hl
        have := hE.once
        rw [← hP, List.map_append, List.nodup_append] at this
        exact this.2.2 w (List.mem_map.2 ⟨_, h1, rfl⟩) w (by simp) rfl
    obtain ⟨s1, hs1, h1⟩ := bert_step hm (zero := zero) (diff := diff) hi h hnew
      (fun a ha => hE.own w x a hmem ha) (fun b y hy => by
        obtain ⟨q, k, v, hq, hk, hv, rfl⟩ := bert_triple_mem hsub hy
        cases b
        · exact hE.bias q k v hq hk hv
        · exact hE.weight q k v hq hk hv)
    obtain ⟨s2, hs2, h2⟩ := ih (P ++ [(w, x)]) s1 (by rw [← hP]; simp) h1
    refine ⟨s2, ?_, h2⟩
    show ((layerName i w, x) :: layerEntries i Q).foldlM (loadOne m zero diff) s = some s2
    rw [List.foldlM_cons, hs1]
    exact hs2

/-- What an item writes. -/
def bertTouches {α : Type} : Item α → Path → Prop
  | .layer i _, p => ∃ a, p = layerParam i a
  | .plain parts _, p => p = parts.map .attr

theorem bert_layer_item {α : Type} {m : Model} (hm : KernelModel m) {zero : α} {diff i : Nat}
    (hi : i < m.layers) {E : List (LayerVar × List α)} (hE : LayerVars m i E) {s0 : State α}
    (h0 : ∀ k, s0.qkv k = none) :
    ∃ s, (layerEntries i E).foldlM (loadOne m zero diff) s0 = some s ∧ (∀ k, s.qkv k = none) ∧
      LayerLoaded s.value i E ∧ ∀ p, (∀ a, p ≠ layerParam i a) → s.value p = s0.value p := by
  have hstart : BertInv i s0 [] s0 := by
    refine ⟨fun k => ?_, fun b => ?_, fun v a _ => ?_, fun p _ => rfl⟩
    · rw [h0]; simp
    · simp [bertTriple, triple]
    · simp
  obtain ⟨s, hs, h⟩ := bert_block hm (zero := zero) (diff := diff) hi hE E [] s0 rfl hstart
  have htr : ∀ b q k v, (bertVar (bertQ b), q) ∈ E → (bertVar (bertK b), k) ∈ E →
      (bertVar (bertV b), v) ∈ E → bertTriple b E = some (q ++ k ++ v) := by
    intro b q k v hq hk hv
    simp only [bertTriple, bert_mem_lookup hE.once hq, bert_mem_lookup hE.once hk,
      bert_mem_lookup hE.once hv]
    rfl
  refine ⟨s, hs, fun k => ?_, ⟨fun v x a hx ha => ?_, fun q k v hq hk hv => ?_,
    fun q k v hq hk hv => ?_⟩, h.other⟩
  · rw [h.qkv]
    obtain ⟨q, hq⟩ := hE.all (bertVar (bertQ (bertW k)))
    obtain ⟨l, hl⟩ := hE.all (bertVar (bertK (bertW k)))
    obtain ⟨v, hv⟩ := hE.all (bertVar (bertV (bertW k)))
    rw [htr _ q l v hq hl hv]
    rfl
  · rw [h.own v a ha, bert_mem_lookup hE.once hx]; rfl
  · exact (h.all true).trans (by rw [htr true q k v hq hk hv]; rfl)
  · exact (h.all false).trans (by rw [htr false q k v hq hk hv]; rfl)

theorem bert_dots_dotted (parts : List Name) (hne : parts ≠ []) (hdot : ∀ w ∈ parts, '.' ∉ w) :
    dots (dotted parts) = parts := by
  induction parts with
  | nil => exact absurd rfl hne
  | cons w ws ih =>
    cases ws with
    | nil =>
      have h := hdot w (by simp)
      simp only [dotted]
      clear ih hdot hne
      induction w with
      | nil => rfl
      | cons c w ih =>
        have hc : c ≠ '.' := fun e => h (by simp [e])
        rw [dots, if_neg hc, ih (fun e => h (by simp [e]))]
    | cons u us =>
      rw [dotted, bert_dots _ _ (hdot w (by simp)), ih (by simp) (fun x hx => hdot x (by simp [hx]))]
      simp

theorem bert_pos_infix (pat s : Name) : (pos pat s).isSome = true ↔ pat <:+: s := by
  induction s with
  | nil =>
    simp only [pos, List.infix_nil]
    cases pat <;> simp
  | cons c l ih =>
    rw [pos, List.infix_cons_iff]
    split
    · rename_i h
      simp [List.isPrefixOf_iff_prefix.1 h]
    · rename_i h
      rw [Option.isSome_map, ih]
      constructor
      · exact Or.inr
      · rintro (h' | h')
        · exact absurd (List.isPrefixOf_iff_prefix.2 h') h
        · exact h'

theorem bert_walk_plain {m : Model} (full : Name) (ps : List Name) (hl : "layer".toList ∉ ps)
    (hd : "dense".toList ∉ ps) : ∀ (pre : List Name),
    (∀ k, 0 < k → k ≤ ps.length → m.attrs ((pre ++ ps.take k).map .attr) = true) →
    walk m full false (pre.map .attr) ps = some (some ((pre ++ ps).map .attr, none)) := by
  induction ps with
  | nil => intro pre _; simp [walk]
  | cons w ws ih =>
    intro pre hall
    have h1 := hall 1 (by omega) (by simp)
    simp only [List.take_succ_cons, List.take_zero, List.map_append, List.map_cons, List.map_nil] at h1
    have hw1 : w ≠ "layer".toList := fun e => hl (by simp [e])
    have hw2 : w ≠ "dense".toList := fun e => hd (by simp [e])
    have h := ih (fun e => hl (List.mem_cons_of_mem _ e)) (fun e => hd (List.mem_cons_of_mem _ e))
      (pre ++ [w]) (fun k hk hkl => by
        have := hall (k + 1) (by omega) (by simp only [List.length_cons]; omega)
        rw [List.take_succ_cons] at this
        rw [List.append_assoc]
        exact this)
    rw [walk]
    dsimp only
    rw [if_neg (fun e => hw2 e.2), if_neg (by simp), if_pos h1]
    dsimp only
    rw [if_neg hw1, Bool.and_false, if_neg (by simp)]
    rw [List.map_append, List.append_assoc] at h
    exact h

theorem bert_pad {α : Type} (w name : Name) (zero : α) (diff : Nat) (x : List α) :
    (if 0 < diff ∧ (pos w name).isSome = true then x ++ List.replicate diff zero else x) =
      if w <:+: name then x ++ List.replicate diff zero else x := by
  by_cases hin : w <:+: name
  · cases diff with
    | zero => simp
    | succ d => rw [if_pos ⟨Nat.succ_pos d, (bert_pos_infix _ _).2 hin⟩, if_pos hin]
  · rw [if_neg (fun e => hin ((bert_pos_infix _ _).1 e.2)), if_neg hin]

theorem bert_plain_item {α : Type} {m : Model} {zero : α} {diff : Nat} {parts : List Name}
    {x : List α} (hp : PlainVar m zero diff parts x) {s0 : State α} (h0 : ∀ k, s0.qkv k = none) :
    ∃ s, loadOne m zero diff s0 (dotted parts, x) = some s ∧ (∀ k, s.qkv k = none) ∧
      s.value (parts.map .attr) = some (padded zero diff (dotted parts) x) ∧
      ∀ p, p ≠ parts.map .attr → s.value p = s0.value p := by
  have hw := bert_walk_plain (m := m) (dotted parts) parts hp.noLayer hp.noDense []
    (fun k hk hkl => hp.there k hk hkl)
  simp only [List.map_nil, List.nil_append] at hw
  have hpad : (if 0 < diff ∧ (pos "embeddings.word_embeddings".toList (dotted parts)).isSome = true
      then x ++ List.replicate diff zero else x) = padded zero diff (dotted parts) x := by
    unfold padded
    exact bert_pad _ _ zero diff x
  have hattr : m.attrs (parts.map .attr) = true := by
    have := hp.there parts.length (List.length_pos_iff.2 hp.some) (Nat.le_refl _)
    rwa [List.take_length] at this
  unfold loadOne
  dsimp only
  rw [bert_dots_dotted parts hp.some hp.dotFree, hw]
  dsimp only
  rw [h0, h0, h0, h0, h0, h0]
  simp only [triple, Option.bind_none, Option.isSome_none, Bool.false_eq_true, if_false]
  unfold finish
  dsimp only
  rw [hpad, if_pos (Or.inl hattr), setData, if_pos hp.fits]
  refine ⟨_, rfl, h0, if_pos rfl, fun p hne => if_neg hne⟩

theorem bert_item {α : Type} {m : Model} (hm : KernelModel m) {zero : α} {diff : Nat} {it : Item α}
    (hf : it.Fits m zero diff) {s0 : State α} (h0 : ∀ k, s0.qkv k = none) :
    ∃ s, it.entries.foldlM (loadOne m zero diff) s0 = some s ∧ (∀ k, s.qkv k = none) ∧
      it.Loaded s.value zero diff ∧ ∀ p, ¬ bertTouches it p → s.value p = s0.value p := by
  cases it with
  | layer i E =>
    obtain ⟨s, h1, h2, h3, h4⟩ := bert_layer_item hm (zero := zero) (diff := diff) hf.1 hf.2 h0
    exact ⟨s, h1, h2, h3, fun p hp => h4 p (fun a e => hp ⟨a, e⟩)⟩
  | plain parts x =>
    obtain ⟨s, h1, h2, h3, h4⟩ := bert_plain_item hf h0
    refine ⟨s, ?_, h2, h3, h4⟩
    simp only [Item.entries, List.foldlM_cons, List.foldlM_nil, h1]
    rfl

/-- Loaded means the same for values that agree on what the item writes. -/
theorem bert_loaded_congr {α : Type} {zero : α} {diff : Nat} {it : Item α}
    {f g : Path → Option (List α)} (h : ∀ p, bertTouches it p → g p = f p)
    (hl : it.Loaded f zero diff) : it.Loaded g zero diff := by
  cases it with
  | layer i E =>
    exact ⟨fun v x a hx ha => (h _ ⟨a, rfl⟩).trans (hl.own v x a hx ha),
      fun q k v hq hk hv => (h _ ⟨_, rfl⟩).trans (hl.weight q k v hq hk hv),
      fun q k v hq hk hv => (h _ ⟨_, rfl⟩).trans (hl.bias q k v hq hk hv)⟩
  | plain parts x => exact (h _ rfl).trans hl

theorem bert_attr_inj {a b : List Name} (h : a.map Seg.attr = b.map Seg.attr) : a = b := by
  induction a generalizing b with
  | nil => cases b with
    | nil => rfl
    | cons => cases h
  | cons x a ih =>
    cases b with
    | nil => cases h
    | cons y b =>
      simp only [List.map_cons, List.cons.injEq, Seg.attr.injEq] at h
      rw [h.1, ih h.2]

theorem bert_disjoint {α : Type} {m : Model} {zero : α} {diff : Nat} {a b : Item α}
    (ha : a.Fits m zero diff) (hb : b.Fits m zero diff) (hd : a.Differ b) (p : Path)
    (hpa : bertTouches a p) : ¬ bertTouches b p := by
  have hitem : ∀ (parts : List Name) (i : Nat) (n : String), parts.map Seg.attr ≠ layerParam i n := by
    intro parts i n e
    have : Seg.item i ∈ parts.map Seg.attr := by rw [e]; simp [layerParam]
    obtain ⟨_, _, h⟩ := List.mem_map.1 this
    cases h
  intro hpb
  cases a with
  | layer i E =>
    obtain ⟨n, rfl⟩ := hpa
    cases b with
    | layer j F =>
      obtain ⟨n', e⟩ := hpb
      simp only [layerParam, List.cons.injEq, Seg.item.injEq, true_and] at e
      exact hd e.1
    | plain parts x => exact hitem parts i n hpb.symm
  | plain parts x =>
    cases hpa
    cases b with
    | layer j F => obtain ⟨n, e⟩ := hpb; exact hitem parts j n e
    | plain parts' y => exact hd (bert_attr_inj hpb)

theorem bert_items {α : Type} {m : Model} (hm : KernelModel m) {zero : α} {diff : Nat} :
    ∀ (items : List (Item α)) (s0 : State α), (∀ k, s0.qkv k = none) →
    (∀ it ∈ items, it.Fits m zero diff) → items.Pairwise Item.Differ →
    ∃ s, (items.flatMap Item.entries).foldlM (loadOne m zero diff) s0 = some s ∧
      (∀ it ∈ items, it.Loaded s.value zero diff) ∧
      ∀ p, (∀ it ∈ items, ¬ bertTouches it p) → s.value p = s0.value p := by
  intro items
  induction items with
  | nil => intro s0 _ _ _; exact ⟨s0, rfl, by simp, fun _ _ => rfl⟩
  | cons it items ih =>
    intro s0 h0 hfit hdiff
    obtain ⟨s1, h1, hq, hl, hsame⟩ := bert_item hm (hfit it (by simp)) h0
    rw [List.pairwise_cons] at hdiff
    obtain ⟨s2, h2, hl2, hsame2⟩ := ih s1 hq (fun x hx => hfit x (by simp [hx])) hdiff.2
    refine ⟨s2, ?_, ?_, ?_⟩
    · rw [List.flatMap_cons, List.foldlM_append, h1]; exact h2
    · intro x hx
      rcases List.mem_cons.1 hx with rfl | hx
      · refine bert_loaded_congr (fun p hp => hsame2 p (fun y hy => ?_)) hl
        exact bert_disjoint (hfit x (by simp)) (hfit y (by simp [hy])) (hdiff.1 y hy) p hp
      · exact hl2 x hx
    · intro p hp
      rw [hsame2 p (fun y hy => hp y (by simp [hy])), hsame p (hp it (by simp))]

/-- **Every weight ends up where it belongs.**  A checkpoint lists the variables of every layer together
(the layers in any order, the sixteen variables of a layer in any order) and any variables outside the
layers the model has a place for.  Then loading succeeds; every layer holds its own variables, query, key
and value one after the other; every other variable is stored at its place, the word embeddings with the
missing rows filled with zeros. -/
theorem C111_loaded_partial {α : Type} {m : Model} (hm : KernelModel m) (zero : α) (diff : Nat)
    (items : List (Item α)) (hfit : ∀ it ∈ items, it.Fits m zero diff)
    (hdiff : items.Pairwise Item.Differ) :
    ∃ s, loadKernel m zero diff (items.flatMap Item.entries) = some s ∧
      ∀ it ∈ items, it.Loaded s.value zero diff := by
  obtain ⟨s, h1, h2, _⟩ := bert_items hm items State.start (fun _ => rfl) hfit hdiff
  exact ⟨s, h1, h2⟩

/-- What is stored fits. -/
def BertSized {α : Type} (m : Model) (s : State α) : Prop :=
  ∀ p a, s.value p = some a → m.size p = some a.length

theorem bert_setData_sized {α : Type} {m : Model} {s t : State α} {p : Path} {a : List α}
    (hs : BertSized m s) (h : setData m s p a = some t) : BertSized m t := by
  unfold setData at h
  split at h
  · rename_i hsz
    cases h
    intro q b hb
    dsimp only at hb
    split at hb
    · rename_i e
      cases hb; rw [e]; exact hsz
    · exact hs q b hb
  · cases h

theorem bert_finish_sized {α : Type} {m : Model} {zero : α} {diff : Nat} {full : Name} {s t : State α}
    {p : Path} {a : List α} (hs : BertSized m s) (h : finish m zero diff full s p a = some t) :
    BertSized m t := by
  unfold finish at h
  dsimp only at h
  split at h
  · exact bert_setData_sized hs h
  · cases h

theorem bert_fold_sized {α β : Type} {m : Model} {f : State α → β → Option (State α)}
    (hf : ∀ s x t, BertSized m s → f s x = some t → BertSized m t) (l : List β) (s t : State α)
    (hs : BertSized m s) (h : l.foldlM f s = some t) : BertSized m t := by
  induction l generalizing s with
  | nil => cases h; exact hs
  | cons x l ih =>
    rw [List.foldlM_cons] at h
    cases hx : f s x with
    | none => rw [hx] at h; cases h
    | some u => rw [hx] at h; exact ih u (hf s x u hs hx) h

/-- **No array is stored where it does not fit**, whatever the checkpoint and the loader. -/
theorem C111_sizes {α : Type} {m : Model} {zero : α} {diff : Nat} {ckpt : List (Name × List α)}
    {s : State α} (h : loadKernel m zero diff ckpt = some s ∨ loadTorch m zero diff ckpt = some s)
    {p : Path} {a : List α} (hp : s.value p = some a) : m.size p = some a.length := by
  refine (?_ : BertSized m s) p a hp
  have h0 : BertSized m (State.start (α := α)) := fun _ _ e => by cases e
  rcases h with h | h
  · refine bert_fold_sized ?_ ckpt _ s h0 h
    intro s x t hs ht
    unfold loadOne at ht
    dsimp only at ht
    split at ht
    · cases ht
    · cases ht; exact hs
    · split at ht
      · refine bert_finish_sized ?_ ht; exact hs
      · refine bert_finish_sized ?_ ht; exact hs
      · split at ht
        · cases ht; exact hs
        · refine bert_finish_sized ?_ ht; exact hs
  · refine bert_fold_sized ?_ ckpt _ s h0 h
    intro s x t hs ht
    split at ht
    · cases ht
    · cases ht; exact hs
    · exact bert_finish_sized hs ht

/-- One entry that raises in every state makes the whole conversion raise. -/
theorem bert_raises {α β : Type} {f : β → α → Option β} {l : List α} {x : α} (hx : x ∈ l)
    (hf : ∀ s, f s x = none) (s : β) : l.foldlM f s = none := by
  induction l generalizing s with
  | nil => cases hx
  | cons y l ih =>
    rw [List.foldlM_cons]
    rcases List.mem_cons.1 hx with rfl | hx
    · rw [hf s]; rfl
    · cases f s y with
      | none => rfl
      | some t => exact ih hx t

/-- **Refuted: a published checkpoint can be loaded.**  The converter looks for an attribute `dense_act`
of the pooler, which the model calls `dense` (nvidia_modeling.py:606): every checkpoint with a pooler is
rejected with an `AttributeError`, whatever else it contains. -/
theorem C111_pooler_refuted {α : Type} {m : Model} (hbert : m.attrs [.attr "bert".toList] = true)
    (hpool : m.attrs [.attr "bert".toList, .attr "pooler".toList] = true)
    (hact : m.attrs [.attr "bert".toList, .attr "pooler".toList, .attr "dense_act".toList] = false)
    (zero : α) (diff : Nat) (ckpt : List (Name × List α)) (x : List α)
    (hx : ("bert.pooler.dense.weight".toList, x) ∈ ckpt) :
    loadKernel m zero diff ckpt = none ∧ loadTorch m zero diff ckpt = none := by
  have hd : dots "bert.pooler.dense.weight".toList =
      ["bert".toList, "pooler".toList, "dense".toList, "weight".toList] := by decide +kernel
  have hp1 : (pos "bert.pooler.dense".toList "bert.pooler.dense.weight".toList).isSome = true := by
    decide +kernel
  have hp2 : (pos "pooler.dense".toList "bert.pooler.dense.weight".toList).isSome = true := by
    decide +kernel
  have n1 : "bert".toList ≠ "dense".toList := by decide
  have n2 : "pooler".toList ≠ "dense".toList := by decide
  have n3 : "bert".toList ≠ "layer".toList := by decide
  have n4 : "pooler".toList ≠ "layer".toList := by decide
  constructor
  · refine bert_raises hx (fun s => ?_) _
    have hw : walk m "bert.pooler.dense.weight".toList false []
        ["bert".toList, "pooler".toList, "dense".toList, "weight".toList] = none := by
      simp only [walk, hp1, true_and, n1, n2, n3, n4, if_false, Bool.false_eq_true, List.nil_append,
        hbert, if_true, List.cons_append, hpool, hact, Bool.and_false]
    simp only [loadOne, hd, hw]
  · refine bert_raises hx (fun s => ?_) _
    have hw : walkTorch m "bert.pooler.dense.weight".toList []
        ["bert".toList, "pooler".toList, "dense".toList, "weight".toList] = none := by
      simp only [walkTorch, hp2, or_true, true_and, n1, n2, if_false, Bool.false_eq_true,
        List.nil_append, hbert, if_true, List.cons_append, hpool, hact]
    simp only [hd, hw]

/-- **Refuted: a checkpoint can be loaded without DeepSpeed's layers.**  The same rename broke the other
loader: the dense part of the intermediate block of a layer is called `dense` in the model
(nvidia_modeling.py:465), so every checkpoint with such a layer is rejected. -/
theorem C111_torch_refuted {α : Type} {m : Model} {i : Nat}
    (hthere : ∀ k, 0 < k → k ≤ 5 → m.attrs ((["bert".toList, "encoder".toList, "layer".toList,
      Nat.toDigits 10 i, "intermediate".toList].take k).map .attr) = true)
    (hact : m.attrs (["bert".toList, "encoder".toList, "layer".toList, Nat.toDigits 10 i,
      "intermediate".toList, "dense_act".toList].map .attr) = false)
    (zero : α) (diff : Nat) (ckpt : List (Name × List α)) (x : List α)
    (hx : (layerName i .interWeight, x) ∈ ckpt) : loadTorch m zero diff ckpt = none := by
  have hd : dots (layerName i .interWeight) = ["bert".toList, "encoder".toList, "layer".toList,
      Nat.toDigits 10 i, "intermediate".toList, "dense".toList, "weight".toList] := by
    have hdot : '.' ∉ Nat.toDigits 10 i := by
      intro h
      have := (bert_digits i).1 _ h
      revert this; decide
    have hname : layerName i .interWeight = dotted ["bert".toList, "encoder".toList, "layer".toList,
        Nat.toDigits 10 i, "intermediate".toList, "dense".toList, "weight".toList] := by
      unfold layerName
      generalize Nat.toDigits 10 i = D
      have h1 : "bert.encoder.layer.".toList = "bert".toList ++ ('.' :: ("encoder".toList ++
        ('.' :: ("layer".toList ++ ['.'])))) := by decide
      have h2 : LayerVar.interWeight.suffix = '.' :: ("intermediate".toList ++ '.' ::
        ("dense".toList ++ '.' :: "weight".toList)) := by decide +kernel
      rw [h1, h2]
      simp only [dotted, List.append_assoc, List.cons_append, List.nil_append]
    rw [hname]
    refine bert_dots_dotted _ (by simp) ?_
    intro w hw
    simp only [List.mem_cons, List.not_mem_nil, or_false] at hw
    rcases hw with rfl | rfl | rfl | rfl | rfl | rfl | rfl
    · decide
    · decide
    · decide
    · exact hdot
    · decide
    · decide
    · decide
  have hp : (pos "intermediate.dense".toList (layerName i .interWeight)).isSome = true := by
    have : pos "intermediate.dense".toList (layerName i .interWeight) = _ :=
      bert_pos_layer _ (by decide) (by decide) (by decide) i _
    rw [this, Option.isSome_map]
    decide +kernel
  have n1 : "bert".toList ≠ "dense".toList := by decide
  have n2 : "encoder".toList ≠ "dense".toList := by decide
  have n3 : "layer".toList ≠ "dense".toList := by decide
  have n4 : Nat.toDigits 10 i ≠ "dense".toList := by
    intro h
    have := (bert_digits i).1 'd' (by rw [h]; decide)
    revert this; decide
  have n5 : "intermediate".toList ≠ "dense".toList := by decide
  have a1 := hthere 1 (by omega) (by omega)
  have a2 := hthere 2 (by omega) (by omega)
  have a3 := hthere 3 (by omega) (by omega)
  have a4 := hthere 4 (by omega) (by omega)
  have a5 := hthere 5 (by omega) (by omega)
  simp only [List.take_succ_cons, List.take_zero, List.map_cons, List.map_nil] at a1 a2 a3 a4 a5 hact
  refine bert_raises hx (fun s => ?_) _
  have hw : walkTorch m (layerName i .interWeight) [] ["bert".toList, "encoder".toList,
      "layer".toList, Nat.toDigits 10 i, "intermediate".toList, "dense".toList, "weight".toList] =
      none := by
    simp only [walkTorch, hp, true_or, true_and, n1, n2, n3, n4, n5, if_false, Bool.false_eq_true,
      List.nil_append, if_true, List.cons_append, a1, a2, a3, a4, a5, hact]
  simp only [hd, hw]

/-- The pieces after reading one more. -/
def bertUpd {α : Type} (s : State α) (k : Key) (x : List α) : Key → Option (List α) :=
  fun j => if j = k then some x else s.qkv j

/-- The state after keeping one more piece. -/
def bertKeep {α : Type} (s : State α) (k : Key) (x : List α) : State α := ⟨s.value, bertUpd s k x⟩

/-- The state after writing the three pieces to layer `i`. -/
def bertPut {α : Type} (i : Nat) (s : State α) (k : Key) (x y : List α) : State α :=
  ⟨fun q => if q = layerParam i "attn_qkvw" then some y else s.value q,
    fun j => if j = .qw ∨ j = .kw ∨ j = .vw then none else bertUpd s k x j⟩

theorem bert_wait {α : Type} {m : Model} (hm : KernelModel m) {zero : α} {diff i : Nat}
    (hi : i < m.layers) (s : State α) (k : Key) (x : List α)
    (hw : triple (bertUpd s k x .qw) (bertUpd s k x .kw) (bertUpd s k x .vw) = none)
    (hb : triple (bertUpd s k x .qb) (bertUpd s k x .kb) (bertUpd s k x .vb) = none) :
    loadOne m zero diff s (layerName i (bertVar k), x) = some (bertKeep s k x) := by
  have hown : (bertVar k).own = none := by cases k <;> rfl
  have hkey : bertKey (bertVar k) = some k := by cases k <;> rfl
  unfold bertUpd at hw hb
  unfold loadOne
  dsimp only
  rw [bert_walk_layer hm hi, hown, hkey]
  dsimp only
  rw [hw, hb]
  rfl

theorem bert_write {α : Type} {m : Model} (hm : KernelModel m) {zero : α} {diff i : Nat}
    (hi : i < m.layers) (s : State α) (k : Key) (x y : List α)
    (hw : triple (bertUpd s k x .qw) (bertUpd s k x .kw) (bertUpd s k x .vw) = some y)
    (hs : m.size (layerParam i "attn_qkvw") = some y.length) :
    loadOne m zero diff s (layerName i (bertVar k), x) = some (bertPut i s k x y) := by
  have hown : (bertVar k).own = none := by cases k <;> rfl
  have hkey : bertKey (bertVar k) = some k := by cases k <;> rfl
  have hno : ¬ (0 < diff ∧
      (pos "embeddings.word_embeddings".toList (layerName i (bertVar k))).isSome = true) := by
    rw [bert_no_embedding]; simp
  have hp : m.attrs (bertLayer i ++ [.attr "attn_qkvw".toList]) = true := hm.weight i hi
  have hsz : m.size (bertLayer i ++ [.attr "attn_qkvw".toList]) = some y.length := hs
  unfold bertUpd at hw
  unfold loadOne
  dsimp only
  rw [bert_walk_layer hm hi, hown, hkey]
  dsimp only
  rw [hw]
  dsimp only
  simp only [finish, if_neg hno, hp, true_or, if_true, setData, hsz]
  rfl

/-- **Refuted: the order of the checkpoint does not matter.**  If the queries of two layers come before
their keys and values, loading succeeds and layer `i` gets query and key of layer `j`; layer `j` gets
nothing. -/
theorem C111_interleaved_refuted {α : Type} {m : Model} (hm : KernelModel m) (zero : α) (diff : Nat)
    {i j : Nat} (hi : i < m.layers) (hj : j < m.layers) (hij : i ≠ j) (q q' k k' v v' : List α)
    (hs : m.size (layerParam i "attn_qkvw") = some (q' ++ k' ++ v).length) :
    ∃ s, loadKernel m zero diff
        [(layerName i .queryWeight, q), (layerName j .queryWeight, q'), (layerName i .keyWeight, k),
         (layerName j .keyWeight, k'), (layerName i .valueWeight, v), (layerName j .valueWeight, v')] =
        some s ∧
      s.value (layerParam i "attn_qkvw") = some (q' ++ k' ++ v) ∧
      s.value (layerParam j "attn_qkvw") = none := by
  obtain ⟨s1, h1⟩ : ∃ t, t = bertKeep (α := α) State.start .qw q := ⟨_, rfl⟩
  obtain ⟨s2, h2⟩ : ∃ t, t = bertKeep s1 .qw q' := ⟨_, rfl⟩
  obtain ⟨s3, h3⟩ : ∃ t, t = bertKeep s2 .kw k := ⟨_, rfl⟩
  obtain ⟨s4, h4⟩ : ∃ t, t = bertKeep s3 .kw k' := ⟨_, rfl⟩
  obtain ⟨s5, h5⟩ : ∃ t, t = bertPut i s4 .vw v (q' ++ k' ++ v) := ⟨_, rfl⟩
  obtain ⟨s6, h6⟩ : ∃ t, t = bertKeep s5 .vw v' := ⟨_, rfl⟩
  have e1 := bert_wait hm (zero := zero) (diff := diff) hi State.start .qw q rfl rfl
  have e2 := bert_wait hm (zero := zero) (diff := diff) hj s1 .qw q' (by subst h1; rfl) (by subst h1; rfl)
  have e3 := bert_wait hm (zero := zero) (diff := diff) hi s2 .kw k (by subst h2 h1; rfl)
    (by subst h2 h1; rfl)
  have e4 := bert_wait hm (zero := zero) (diff := diff) hj s3 .kw k' (by subst h3 h2 h1; rfl)
    (by subst h3 h2 h1; rfl)
  have e5 := bert_write hm (zero := zero) (diff := diff) hi s4 .vw v (q' ++ k' ++ v)
    (by subst h4 h3 h2 h1; rfl) hs
  have e6 := bert_wait hm (zero := zero) (diff := diff) hj s5 .vw v' (by subst h5; rfl)
    (by subst h5 h4 h3 h2 h1; rfl)
  rw [← h1] at e1
  rw [← h2] at e2
  rw [← h3] at e3
  rw [← h4] at e4
  rw [← h5] at e5
  rw [← h6] at e6
  simp only [bertVar] at e1 e2 e3 e4 e5 e6
  refine ⟨s6, ?_, ?_, ?_⟩
  · simp only [loadKernel, List.foldlM_cons, List.foldlM_nil, e1, e2, e3, e4, e5, e6, bind, Option.bind,
      pure]
  · rw [h6, h5]; exact if_pos rfl
  · rw [h6, h5]
    refine (if_neg ?_).trans ?_
    · intro e
      simp only [layerParam, List.cons.injEq, Seg.item.injEq, true_and] at e
      exact hij e.1.symm
    · rw [h4, h3, h2, h1]; rfl

/-- **Refuted: an incomplete layer leaves the others alone.**  If the query of layer `i` is missing, the
next layer gets its key and value. -/
theorem C111_missing_refuted {α : Type} {m : Model} (hm : KernelModel m) (zero : α) (diff : Nat)
    {i j : Nat} (hi : i < m.layers) (hj : j < m.layers) (k v q' k' v' : List α)
    (hs : m.size (layerParam j "attn_qkvw") = some (q' ++ k ++ v).length) :
    ∃ s, loadKernel m zero diff
        [(layerName i .keyWeight, k), (layerName i .valueWeight, v), (layerName j .queryWeight, q'),
         (layerName j .keyWeight, k'), (layerName j .valueWeight, v')] = some s ∧
      s.value (layerParam j "attn_qkvw") = some (q' ++ k ++ v) := by
  obtain ⟨s1, h1⟩ : ∃ t, t = bertKeep (α := α) State.start .kw k := ⟨_, rfl⟩
  obtain ⟨s2, h2⟩ : ∃ t, t = bertKeep s1 .vw v := ⟨_, rfl⟩
  obtain ⟨s3, h3⟩ : ∃ t, t = bertPut j s2 .qw q' (q' ++ k ++ v) := ⟨_, rfl⟩
  obtain ⟨s4, h4⟩ : ∃ t, t = bertKeep s3 .kw k' := ⟨_, rfl⟩
  obtain ⟨s5, h5⟩ : ∃ t, t = bertKeep s4 .vw v' := ⟨_, rfl⟩
  have e1 := bert_wait hm (zero := zero) (diff := diff) hi State.start .kw k rfl rfl
  have e2 := bert_wait hm (zero := zero) (diff := diff) hi s1 .vw v (by subst h1; rfl) (by subst h1; rfl)
  have e3 := bert_write hm (zero := zero) (diff := diff) hj s2 .qw q' (q' ++ k ++ v)
    (by subst h2 h1; rfl) hs
  have e4 := bert_wait hm (zero := zero) (diff := diff) hj s3 .kw k' (by subst h3; rfl)
    (by subst h3 h2 h1; rfl)
  have e5 := bert_wait hm (zero := zero) (diff := diff) hj s4 .vw v' (by subst h4 h3; rfl)
    (by subst h4 h3 h2 h1; rfl)
  rw [← h1] at e1
  rw [← h2] at e2
  rw [← h3] at e3
  rw [← h4] at e4
  rw [← h5] at e5
  simp only [bertVar] at e1 e2 e3 e4 e5
  refine ⟨s5, ?_, ?_⟩
  · simp only [loadKernel, List.foldlM_cons, List.foldlM_nil, e1, e2, e3, e4, e5, bind, Option.bind,
      pure]
  · rw [h5, h4, h3]; exact if_pos rfl

/-- A model with two layers, embeddings of eight rows and everything else of one row. -/
def bertToy : Model where
  attrs := fun _ => true
  layers := 2
  size := fun p =>
    if p.getLast? = some (.attr "attn_qkvw".toList) ∨ p.getLast? = some (.attr "attn_qkvb".toList)
    then some 3
    else if .attr "word_embeddings".toList ∈ p then some 8 else some 1

theorem bertToy_kernel : KernelModel bertToy :=
  ⟨rfl, rfl, rfl, fun _ _ => rfl, fun _ _ => rfl, fun _ _ _ _ _ => rfl⟩

/-- The variables of a layer of the toy model, in an unusual order. -/
def bertToyLayer (n : Nat) : List (LayerVar × List Nat) :=
  [(.valueBias, [n]), (.normWeight, [n + 1]), (.queryWeight, [n + 2]), (.keyBias, [n + 3]),
   (.keyWeight, [n + 4]), (.queryBias, [n + 5]), (.attnOutWeight, [n + 6]), (.valueWeight, [n + 7]),
   (.attnOutBias, [n + 8]), (.attnNormWeight, [n + 9]), (.attnNormBias, [n + 10]),
   (.interWeight, [n + 11]), (.interBias, [n + 12]), (.outWeight, [n + 13]), (.outBias, [n + 14]),
   (.normBias, [n + 15])]

theorem bertToy_vars (i n : Nat) : LayerVars bertToy i (bertToyLayer n) := by
  have hone : ∀ e ∈ bertToyLayer n, e.2.length = 1 := by
    intro e he
    simp only [bertToyLayer, List.mem_cons, List.not_mem_nil, or_false] at he
    rcases he with rfl | rfl | rfl | rfl | rfl | rfl | rfl | rfl | rfl | rfl | rfl | rfl | rfl | rfl |
      rfl | rfl <;> rfl
  have hlen : ∀ e ∈ bertToyLayer n, ∀ f ∈ bertToyLayer n, ∀ g ∈ bertToyLayer n,
      (e.2 ++ f.2 ++ g.2).length = 3 := by
    intro e he f hf g hg
    rw [List.length_append, List.length_append, hone e he, hone f hf, hone g hg]
  refine ⟨by simp only [bertToyLayer, List.map_cons, List.map_nil]; decide, ?_, ?_, ?_, ?_⟩
  · intro v
    cases v <;> exact ⟨_, by simp [bertToyLayer]; rfl⟩
  · intro v x a hx ha
    have h1 : x.length = 1 := hone _ hx
    rw [h1]
    cases v <;> simp only [LayerVar.own, Option.some.injEq, reduceCtorEq] at ha <;> subst ha <;> rfl
  · intro q k v hq hk hv
    have h3 : (q ++ k ++ v).length = 3 := hlen _ hq _ hk _ hv
    rw [h3]; rfl
  · intro q k v hq hk hv
    have h3 : (q ++ k ++ v).length = 3 := hlen _ hq _ hk _ hv
    rw [h3]; rfl

/-- Layer 1, the word embeddings with five of eight rows, and layer 0. -/
example : ∃ s, loadKernel bertToy 0 3 (([.layer 1 (bertToyLayer 100),
      .plain ["bert".toList, "embeddings".toList, "word_embeddings".toList, "weight".toList]
        [1, 2, 3, 4, 5], .layer 0 (bertToyLayer 200)] : List (Item Nat)).flatMap Item.entries) = some s ∧
    s.value (layerParam 1 "attn_qkvw") = some [102, 104, 107] ∧
    s.value (layerParam 0 "attn_qkvb") = some [205, 203, 200] ∧
    s.value (["bert".toList, "embeddings".toList, "word_embeddings".toList, "weight".toList].map .attr) =
      some [1, 2, 3, 4, 5, 0, 0, 0] := by
  obtain ⟨s, hs, h⟩ := C111_loaded_partial bertToy_kernel 0 3
    ([.layer 1 (bertToyLayer 100),
      .plain ["bert".toList, "embeddings".toList, "word_embeddings".toList, "weight".toList]
        [1, 2, 3, 4, 5], .layer 0 (bertToyLayer 200)] : List (Item Nat))
    (by
      intro it hit
      simp only [List.mem_cons, List.not_mem_nil, or_false] at hit
      rcases hit with rfl | rfl | rfl
      · exact ⟨by decide, bertToy_vars 1 100⟩
      · exact ⟨by simp, by decide +kernel, by decide +kernel, by decide +kernel, fun _ _ _ => rfl,
          by decide +kernel⟩
      · exact ⟨by decide, bertToy_vars 0 200⟩)
    (by simp [Item.Differ])
  refine ⟨s, hs, ?_, ?_, ?_⟩
  · exact (h (.layer 1 (bertToyLayer 100)) (by simp)).weight [102] [104] [107]
      (by simp [bertToyLayer]) (by simp [bertToyLayer]) (by simp [bertToyLayer])
  · exact (h (.layer 0 (bertToyLayer 200)) (by simp)).bias [205] [203] [200]
      (by simp [bertToyLayer]) (by simp [bertToyLayer]) (by simp [bertToyLayer])
  · refine (h (.plain ["bert".toList, "embeddings".toList, "word_embeddings".toList, "weight".toList]
        [1, 2, 3, 4, 5]) (by simp)).trans ?_
    decide +kernel

/-- The two refutations about order on the toy model. -/
example : ∃ s, loadKernel bertToy 0 0 [(layerName 0 .queryWeight, [1]), (layerName 1 .queryWeight, [2]),
      (layerName 0 .keyWeight, [3]), (layerName 1 .keyWeight, [4]), (layerName 0 .valueWeight, [5]),
      (layerName 1 .valueWeight, [6])] = some s ∧
    s.value (layerParam 0 "attn_qkvw") = some [2, 4, 5] ∧
    s.value (layerParam 1 "attn_qkvw") = none :=
  C111_interleaved_refuted bertToy_kernel 0 0 (by decide) (by decide) (by decide) [1] [2] [3] [4] [5] [6]
    rfl

/-- The toy model with the pooler of nvidia_modeling.py. -/
example : loadKernel { bertToy with attrs := fun p => p.getLast? != some (.attr "dense_act".toList) }
    0 0 (layerEntries 0 (bertToyLayer 7) ++ [("bert.pooler.dense.weight".toList, [1])]) = none :=
  (C111_pooler_refuted (by decide +kernel) (by decide +kernel) (by decide +kernel) 0 0 _ [1]
    (by simp)).1

/-- And its layers without DeepSpeed. -/
example : loadTorch { bertToy with attrs := fun p => p.getLast? != some (.attr "dense_act".toList) }
    0 0 (layerEntries 1 (bertToyLayer 7)) = none :=
  C111_torch_refuted (i := 1) (fun k h0 h5 => by
      rcases k with _ | _ | _ | _ | _ | _ | k
      · omega
      all_goals first | omega | decide +kernel) (by decide +kernel) 0 0 _ [18] (by
    simp [layerEntries, bertToyLayer])

/-- Word embeddings with a row too many are rejected. -/
example : loadKernel bertToy 0 3 [("bert.embeddings.word_embeddings.weight".toList,
    [1, 2, 3, 4, 5, 6])] = none := by decide +kernel

end DeepGNN
