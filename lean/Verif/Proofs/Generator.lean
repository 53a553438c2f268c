import Verif.Model.Generator

/-
Proofs about the generator: the seed mixer and the step are injective; the lowest bits of 128 successive
results are a linear function over GF(2) of the state, with an inverse checked on the 128 unit states.
-/

namespace DeepGNN

open Generator

theorem xorShift_injective {k : Nat} (hk : 0 < k) {x y : BitVec 64} (h : x ^^^ (x >>> k) = y ^^^ (y >>> k)) : x = y := by
  have hd : x ^^^ y = (x ^^^ y) >>> k := by
    rw [BitVec.ushiftRight_xor_distrib]
    have h2 := congrArg (fun z => z ^^^ (x >>> k) ^^^ y) h
    have e1 : x ^^^ x >>> k ^^^ x >>> k ^^^ y = x ^^^ y := by rw [BitVec.xor_assoc x, BitVec.xor_self, BitVec.xor_zero]
    have e2 : y ^^^ y >>> k ^^^ x >>> k ^^^ y = x >>> k ^^^ y >>> k := by
      rw [show y ^^^ y >>> k ^^^ x >>> k ^^^ y = (y ^^^ y) ^^^ (x >>> k ^^^ y >>> k) by ac_rfl, BitVec.xor_self, BitVec.zero_xor]
    exact e1.symm.trans (h2.trans e2)
  have hz : (x ^^^ y).toNat = 0 := by
    have hn := congrArg BitVec.toNat hd
    rw [BitVec.toNat_ushiftRight, Nat.shiftRight_eq_div_pow] at hn
    generalize (x ^^^ y).toNat = d at hn
    rcases Nat.eq_zero_or_pos d with h0 | h0
    · exact h0
    · have h2 : d / 2 ^ k ≤ d / 2 := by
        obtain ⟨j, rfl⟩ : ∃ j, k = j + 1 := ⟨k - 1, by omega⟩
        rw [Nat.pow_succ, Nat.mul_comm, ← Nat.div_div_eq_div_mul]
        exact Nat.div_le_self _ _
      omega
  have hz2 : x ^^^ y = 0#64 := BitVec.eq_of_toNat_eq hz
  have h3 := congrArg (fun z => z ^^^ y) hz2
  simp only [BitVec.xor_assoc, BitVec.xor_self, BitVec.xor_zero, BitVec.zero_xor] at h3
  exact h3

theorem mul_injective_of_inverse {c d : BitVec 64} (hcd : c * d = 1#64) {x y : BitVec 64} (h : x * c = y * c) : x = y := by
  have h2 := congrArg (fun z => z * d) h
  simp only [BitVec.mul_assoc, hcd, BitVec.mul_one] at h2
  exact h2

theorem add_right_injective64 {c x y : BitVec 64} (h : x + c = y + c) : x = y := (BitVec.add_left_inj c).mp h

theorem splitMix_injective {x y : BitVec 64} (h : (splitMix x).1 = (splitMix y).1) : x = y := by
  have h1 := xorShift_injective (by decide) h
  have h2 := mul_injective_of_inverse (d := 0x319642b2d24d8ec3#64) (by decide) h1
  have h3 := xorShift_injective (by decide) h2
  have h4 := mul_injective_of_inverse (d := 0x96de1b173f119089#64) (by decide) h3
  have h5 := xorShift_injective (by decide) h4
  exact add_right_injective64 h5

theorem rotl_getLsbD (x : BitVec 64) {k i : Nat} (hk : k < 64) (hi : i < 64) :
    (rotl x k).getLsbD i = x.getLsbD ((i + (64 - k)) % 64) := by
  simp only [rotl, BitVec.getLsbD_or, BitVec.getLsbD_shiftLeft, BitVec.getLsbD_ushiftRight]
  by_cases h : i < k
  · rw [Nat.mod_eq_of_lt (by omega)]
    simp [h, hi, Nat.add_comm]
  · have e : (i + (64 - k)) % 64 = i - k := by
      rw [show i + (64 - k) = (i - k) + 64 by omega, Nat.add_mod_right, Nat.mod_eq_of_lt (by omega)]
    rw [e]
    simp [h, hi]
    intro hx
    have := BitVec.lt_of_getLsbD hx
    omega

theorem rotl_injective {k : Nat} (hk : k < 64) {x y : BitVec 64} (h : rotl x k = rotl y k) : x = y := by
  apply BitVec.eq_of_getLsbD_eq
  intro i hi
  have h2 := congrArg (fun z => z.getLsbD ((i + k) % 64)) h
  simp only [rotl_getLsbD _ hk (Nat.mod_lt _ (by decide : 0 < 64))] at h2
  rwa [Nat.mod_add_mod, show i + k + (64 - k) = i + 64 by omega, Nat.add_mod_right, Nat.mod_eq_of_lt hi] at h2

theorem next_injective {s t : State} (h : (next s).2 = (next t).2) : s = t := by
  obtain ⟨a, b⟩ := s
  obtain ⟨c, d⟩ := t
  simp only [next, State.mk.injEq] at h
  have h1 : b ^^^ a = d ^^^ c := rotl_injective (by decide) h.2
  have h2 := h.1
  rw [h1, BitVec.xor_left_inj, BitVec.xor_left_inj] at h2
  have h3 : a = c := rotl_injective (by decide) h2
  subst h3
  rw [BitVec.xor_left_inj] at h1
  rw [h1]

theorem run_injective {n : Nat} {s t : State} (h : run n s = run n t) : s = t := by
  induction n generalizing s t with
  | zero => exact h
  | succ n ih => exact next_injective (ih h)

theorem run_add (m n : Nat) (s : State) : run (m + n) s = run n (run m s) := by
  induction m generalizing s with
  | zero => rw [Nat.zero_add]; rfl
  | succ m ih => rw [Nat.succ_add]; exact ih _

theorem ofSeed_injective {a b : BitVec 64} (h : ofSeed a = ofSeed b) : a = b :=
  splitMix_injective (congrArg State.s0 h)

theorem ofSeed_ne_zero (seed : BitVec 64) : ofSeed seed ≠ ⟨0, 0⟩ := by
  intro h
  have h0 : (splitMix seed).1 = 0 := congrArg State.s0 h
  have h1 : (splitMix (splitMix seed).2).1 = 0 := congrArg State.s1 h
  have h2 : seed = (splitMix seed).2 := splitMix_injective (h0.trans h1.symm)
  have h3 : seed + 0#64 = seed + 0x9e3779b97f4a7c15#64 := by rw [BitVec.add_zero]; exact h2
  exact absurd ((BitVec.add_right_inj seed).mp h3) (by decide)

theorem run_zero_state (n : Nat) : run n ⟨0, 0⟩ = ⟨0, 0⟩ := by
  induction n with
  | zero => rfl
  | succ n ih => exact ih

theorem run_ne_zero {s : State} (h : s ≠ ⟨0, 0⟩) (n : Nat) : run n s ≠ ⟨0, 0⟩ :=
  fun hz => h (run_injective (hz.trans (run_zero_state n).symm))

/-! ### Recurrence -/

theorem nodup_nat_length {N : Nat} {l : List Nat} (hn : l.Nodup) (hl : ∀ x ∈ l, x < N) : l.length ≤ N := by
  induction N generalizing l with
  | zero =>
    cases l with
    | nil => exact Nat.le_refl _
    | cons a l => exact absurd (hl a List.mem_cons_self) (Nat.not_lt_zero _)
  | succ N ih =>
    have h1 : (l.erase N).length ≤ N := by
      apply ih (hn.erase N)
      intro x hx
      have h2 := hl x (List.mem_of_mem_erase hx)
      have h3 : x ≠ N := fun he => by
        subst he
        exact (List.Nodup.mem_erase_iff hn).mp hx |>.1 rfl
      omega
    have h4 := List.length_erase (l := l) (a := N)
    split at h4 <;> omega

/-- A state as a number. -/
def Generator.code (s : State) : Nat := s.s0.toNat * 2 ^ 64 + s.s1.toNat

theorem code_lt (s : State) : code s < 2 ^ 128 := by
  have h0 := s.s0.isLt
  have h1 := s.s1.isLt
  unfold code
  omega

theorem code_injective {s t : State} (h : code s = code t) : s = t := by
  obtain ⟨a, b⟩ := s
  obtain ⟨c, d⟩ := t
  have hb := b.isLt
  have hd := d.isLt
  unfold code at h
  simp only at h
  have h1 : a = c := BitVec.eq_of_toNat_eq (by omega)
  have h2 : b = d := BitVec.eq_of_toNat_eq (by omega)
  rw [h1, h2]

theorem nodup_map_range {f : Nat → Nat} {n : Nat} (h : ∀ i j, i < j → j < n → f i ≠ f j) : ((List.range n).map f).Nodup := by
  rw [List.nodup_iff_pairwise_ne, List.pairwise_map]
  have h2 : (List.range n).Pairwise (fun i j => i < j) := List.pairwise_lt_range
  refine (List.Pairwise.and_mem.mp h2).imp ?_
  rintro i j ⟨_, hj, hij⟩
  exact h i j hij (List.mem_range.mp hj)

theorem run_returns (s : State) : ∃ p, 0 < p ∧ p ≤ 2 ^ 128 ∧ run p s = s := by
  have hex : ∃ i j, i < j ∧ j < 2 ^ 128 + 1 ∧ code (run i s) = code (run j s) := by
    apply Classical.byContradiction
    intro hno
    have hn : ((List.range (2 ^ 128 + 1)).map (fun i => code (run i s))).Nodup :=
      nodup_map_range fun i j hij hj he => hno ⟨i, j, hij, hj, he⟩
    have hl := nodup_nat_length hn (N := 2 ^ 128) (by
      intro x hx
      obtain ⟨i, -, rfl⟩ := List.mem_map.mp hx
      exact code_lt _)
    rw [List.length_map, List.length_range] at hl
    exact absurd hl (Nat.not_succ_le_self _)
  obtain ⟨i, j, hij, hj, he⟩ := hex
  refine ⟨j - i, by omega, by omega, ?_⟩
  have h1 := code_injective he
  rw [show j = (j - i) + i by omega, run_add] at h1
  exact (run_injective h1).symm

/-! ### The lowest bits of the results -/

/-- States added bit by bit. -/
def Generator.xorState (s t : State) : State := ⟨s.s0 ^^^ t.s0, s.s1 ^^^ t.s1⟩

theorem rotl_xor (x y : BitVec 64) {k : Nat} (hk : k < 64) : rotl (x ^^^ y) k = rotl x k ^^^ rotl y k := by
  apply BitVec.eq_of_getLsbD_eq
  intro i hi
  rw [BitVec.getLsbD_xor, rotl_getLsbD _ hk hi, rotl_getLsbD _ hk hi, rotl_getLsbD _ hk hi, BitVec.getLsbD_xor]

theorem xor_swap (a b c d : BitVec 64) : (a ^^^ b) ^^^ (c ^^^ d) = (a ^^^ c) ^^^ (b ^^^ d) := by ac_rfl

theorem next_xor (s t : State) : (next (xorState s t)).2 = xorState (next s).2 (next t).2 := by
  obtain ⟨a, b⟩ := s
  obtain ⟨c, d⟩ := t
  have e : (b ^^^ d) ^^^ (a ^^^ c) = (b ^^^ a) ^^^ (d ^^^ c) := xor_swap _ _ _ _
  unfold next xorState
  simp only
  rw [e]
  generalize b ^^^ a = p
  generalize d ^^^ c = q
  rw [rotl_xor _ _ (by decide), rotl_xor _ _ (by decide), BitVec.shiftLeft_xor_distrib]
  generalize rotl a 24 = a'
  generalize rotl c 24 = c'
  generalize p <<< 16 = p'
  generalize q <<< 16 = q'
  rw [xor_swap a' c' p q, xor_swap (a' ^^^ p) (c' ^^^ q) p' q']

/-- The lowest bits of the next results. -/
def Generator.lows : Nat → State → BitVec 128
  | 0, _ => 0
  | n + 1, s => (lows n (next s).2 <<< 1) ^^^ ((s.s0 ^^^ s.s1) &&& 1#64).setWidth 128

theorem lows_add (n : Nat) (s t : State) : lows n (xorState s t) = lows n s ^^^ lows n t := by
  induction n generalizing s t with
  | zero => exact (BitVec.xor_self).symm
  | succ n ih =>
    simp only [lows, next_xor, ih, BitVec.shiftLeft_xor_distrib]
    have e : ((xorState s t).s0 ^^^ (xorState s t).s1) &&& 1#64 = ((s.s0 ^^^ s.s1) &&& 1#64) ^^^ ((t.s0 ^^^ t.s1) &&& 1#64) := by
      rw [show (xorState s t).s0 ^^^ (xorState s t).s1 = (s.s0 ^^^ s.s1) ^^^ (t.s0 ^^^ t.s1) from xor_swap _ _ _ _]
      generalize s.s0 ^^^ s.s1 = x
      generalize t.s0 ^^^ t.s1 = y
      apply BitVec.eq_of_getLsbD_eq
      intro i _
      simp only [BitVec.getLsbD_and, BitVec.getLsbD_xor]
      cases x.getLsbD i <;> cases y.getLsbD i <;> cases (1#64).getLsbD i <;> rfl
    rw [e, BitVec.setWidth_xor]
    ac_rfl

/-- The columns of the inverse. -/
def Generator.columns : List (BitVec 64 × BitVec 64) :=
  [(0x03ac280f24470247#64, 0xee877b8ab9aaf07c#64),
   (0xef399b01e298f8f8#64, 0xbaf4cc8205ecc324#64),
   (0x2b5e9c990fd8cf61#64, 0x3b71fa802a0f6905#64),
   (0xd740b55146ce0aa9#64, 0xd610ce196f15857d#64),
   (0x0e8cd9b013f7ca2e#64, 0xc5f4759bfd474c5e#64),
   (0x746982eb0415fd46#64, 0xab83b889f23a5eea#64),
   (0x8de082e90f05404c#64, 0xc271501e5a595d88#64),
   (0x96caccb5de0e16c3#64, 0x64180659981d9c43#64),
   (0x1cd6f1b6e83b7705#64, 0xd0161d54f31bb737#64),
   (0x51c7ef66f7928fe6#64, 0xf65f32df49123f0c#64),
   (0xb676703a77192c69#64, 0x4c3ee1c210abd5ff#64),
   (0x76db67f85cd4f47a#64, 0x665e3957a6b50374#64),
   (0x2c05b063f56cd10e#64, 0x91301878565e20c4#64),
   (0x25fde5109522ee16#64, 0x0a6447932c469cee#64),
   (0x4dcc2a8878a1a4c7#64, 0xd4ae1e6f08f286fb#64),
   (0xf4781cae98271891#64, 0x6114db1cdb6f9a59#64),
   (0xf7be496e71ab74f5#64, 0x116535bcbaa3d22d#64),
   (0x8ef17003de787677#64, 0x860f3d172b1eade1#64),
   (0xa00f9fc2c6895cab#64, 0x19576aadcab92543#64),
   (0x154bd60854092022#64, 0x96354ca7d12e694c#64),
   (0xde266f57ac86f1dd#64, 0x0d844f9855daa983#64),
   (0x96d3a1c9c4a27796#64, 0x547d7485dcce55ea#64),
   (0xa59c32ca9a81c57d#64, 0x8b7a4065c8222ed9#64),
   (0xdabb56958fa8e5c3#64, 0x19d11466de1ec5fb#64),
   (0xc6c14815403f7698#64, 0x1d1aedbf051c0c00#64),
   (0xb90dddd1adef9fd0#64, 0xac0e6e3430eaba86#64),
   (0xfd4089427afa67ac#64, 0xb1ec8f13d277e6e6#64),
   (0x0d03d4dce403fa2b#64, 0x93906bebd18c9e53#64),
   (0xc3d55c38596bb0bc#64, 0x70726b4f581ac1d8#64),
   (0xb223e66f1b49b509#64, 0xc8e33061d8ca2653#64),
   (0x8e00a2e2f36e18db#64, 0x6deda055f0c4f363#64),
   (0x0375d9061d9e1685#64, 0xacf3fe9d06f17b87#64),
   (0x0d8971609e6fbdbf#64, 0xe5befabca308224b#64),
   (0x94e642a6a7285d71#64, 0x9cd5503165e8589f#64),
   (0x4c5bd85229bb86b6#64, 0x2a5fc91348b0de0c#64),
   (0xa178fe50ee3ff0b6#64, 0x3b3d78a08f6d0efe#64),
   (0x20b75bc25020fcb3#64, 0xc9e760303c14e54d#64),
   (0x6d6b9a0959d5a542#64, 0x01a06ea6aa776c78#64),
   (0xae0a1fec7fa665dd#64, 0x7672f70a22469493#64),
   (0xadf265cbbcb0fb73#64, 0xfce0516f27036ccb#64),
   (0xdf55d0c0886648a6#64, 0x4b4698234a6cb816#64),
   (0xfed04fafe2405849#64, 0x09a879eacdf79eb3#64),
   (0xc1b7ae1b6e2c157e#64, 0x7af3416b6b8ca48a#64),
   (0xf3235df0ebdfeae0#64, 0x45546b5125e582d0#64),
   (0xaf49ba561af3ccca#64, 0x2666964098d96f90#64),
   (0x72f87860f3f019af#64, 0x763eb31c72c32d1d#64),
   (0xd9ec3788068ab9ed#64, 0x3a7a2ee0ed3b4c75#64),
   (0x2dc4b20bc2033a39#64, 0xc7863bedf63d1975#64),
   (0xe3a7cea59ab3fe1a#64, 0x613d75eba9623dfe#64),
   (0x16b99da0276b41c5#64, 0xa6d9dfca498f5851#64),
   (0xa38f3b3e376a5464#64, 0xf1c341fcba5c9a9a#64),
   (0xe8e243adad4f66bd#64, 0xe01bf4fce72c8e89#64),
   (0xeb1532648b2fdb7a#64, 0xe107059559c2f6e6#64),
   (0x0be356566c12db84#64, 0xa12d41e15b1ae3a8#64),
   (0x171da3d902834004#64, 0xf0ee2741da67d830#64),
   (0x3e313e270f1a9ff4#64, 0x30e200e6889deece#64),
   (0x9923dbea27e7d429#64, 0x404c6719cb8d3615#64),
   (0xddb7113ecf1858ee#64, 0x13eb788e651a3bd6#64),
   (0x43032a7f41707f24#64, 0x302bfba1f1ef24e0#64),
   (0x2f8cd13a8f15db58#64, 0xcd28fb98137976be#64),
   (0xa09c8424a2ece63e#64, 0x60074f915485a1e2#64),
   (0x90dc420737ba2b8b#64, 0x1a786f0824ba11f7#64),
   (0x11e8f301762a5b4c#64, 0x50cd238ecef99834#64),
   (0xb03250ab5e9d46bd#64, 0xc6459c6afc1b2fa1#64),
   (0x4fc676318bc0e63b#64, 0xf50dfcc9181f38e3#64),
   (0x8e89ddfec1905efb#64, 0xc6492439de38311d#64),
   (0x80bbf28ed4b54621#64, 0xa3616083a76afd3b#64),
   (0xaa4d25ca69787c02#64, 0xb7767223b4637706#64),
   (0x5163bba3724ccba8#64, 0xa1ebf39eda1a8a02#64),
   (0xdf943473e37afc38#64, 0x2944e023f675a3a4#64),
   (0x327711621eff26a2#64, 0xc0efeffaa258f398#64),
   (0x84f5f52fdd57fbe0#64, 0xbccc613686bd76a4#64),
   (0xbb34c1d4517c7edc#64, 0xe22a79e4e977efee#64),
   (0xa1813b2c244eb832#64, 0x6be1d7d6ceb219c6#64),
   (0xafb68c873a98bd19#64, 0x19c31c4909c7b3a7#64),
   (0xb4a5fbda6589d41a#64, 0xfcebc6475d47ccf8#64),
   (0x5c8a28b028025afc#64, 0x666016d7efe504ce#64),
   (0x875a4acbd373a55b#64, 0x382562eda040a5ed#64),
   (0xa62264e0536127d6#64, 0x260b324aa74dfefa#64),
   (0xc37e449cefda27db#64, 0x96442b6b3eea7e49#64),
   (0x30aaa8c65f1cdec5#64, 0x8476a8b18e430da5#64),
   (0x79c7a8ab91db8a81#64, 0x189ee3432015cdff#64),
   (0x057d9bcea8fe009e#64, 0x1c7d35a1503af784#64),
   (0xb3451bd7642b9326#64, 0x54ef9feed92588b0#64),
   (0x7043f1e6edf237dd#64, 0xeba18e26f2b8b919#64),
   (0xdd97848d3abc7169#64, 0x072912c0680c8f23#64),
   (0x1339ffbaaef8cd6a#64, 0x10799bc3b6c185fc#64),
   (0xa501b402a0131682#64, 0xb8b7b82d4090da5c#64),
   (0x14076b46f39017bf#64, 0x9328be118bb85845#64),
   (0xf9524f5a98851d9a#64, 0x750f8d98b41c586a#64),
   (0x4161f6de31fe31b7#64, 0x84c1141d62564ddb#64),
   (0x783917181d9896e5#64, 0x932ba576c1be9e45#64),
   (0x2967e635e288712b#64, 0x7241414253fcde3b#64),
   (0x107b21dd09db5633#64, 0x02e4c72cd2495c39#64),
   (0xf6dc22332ce429a0#64, 0x7d653b57791efda2#64),
   (0xd5007abaf9c63516#64, 0x6ec88d57ea2d1ccc#64),
   (0xda717c02b7712ade#64, 0x652014e4d4076eb4#64),
   (0xfc8651c880a35c53#64, 0x370d3938be67aecf#64),
   (0xd199b20b275204d7#64, 0xf941dcf8c3079f25#64),
   (0x7ca618245ce63a41#64, 0x57957758eec1c69d#64),
   (0xe091fbb5e4fcac1d#64, 0x27e7f5810e4007a7#64),
   (0x6f93b1e8dec2b7e2#64, 0x67e1b1d5e7fd884e#64),
   (0x73ba6c2cee2e95a0#64, 0xdc85806e9d11982e#64),
   (0xca158b84b7d10bf3#64, 0x53d654c05cd8d5cb#64),
   (0xe9b9550e5d17b45f#64, 0xeb5f93a0078906f9#64),
   (0xd3e4eaae96956129#64, 0x3ef3f11cc4226f8f#64),
   (0xeafea126b9802570#64, 0x0cdfb25ac077baf8#64),
   (0x74d8e2812adc9784#64, 0xa2db5f56eaba6a16#64),
   (0x304d7e10dd84c745#64, 0x8718ad4068921dbf#64),
   (0xd6022fa3e412c5e4#64, 0xd546bf4e182a008e#64),
   (0x42f01ef6c7090da7#64, 0x32314ef2b1a3385d#64),
   (0xec2bf8c19ba9a7e3#64, 0x948db286efd5dfaf#64),
   (0x99ca7775a82a988a#64, 0xaeb4d988d48ef51e#64),
   (0x933e46a8c6f5a8fb#64, 0xd59a310033800e37#64),
   (0xd1797392d3f875a9#64, 0xd0e573e36d54a421#64),
   (0xe3f21e60169f36b1#64, 0x15b3e8c485f5ef15#64),
   (0x74a9f768a519b521#64, 0x508658100db42a67#64),
   (0x5d87e155976cbfad#64, 0xddea4006ade88d6d#64),
   (0x83edad2c83cbd1ab#64, 0xb682e947ed2483ab#64),
   (0x35c6e19899d485c9#64, 0x0aafc585c4609283#64),
   (0xadfbe51f71fd59ff#64, 0x83d8e18b69a827d3#64),
   (0xef9ef3b788383f2a#64, 0xb4d3b2891426f826#64),
   (0x0aa2be90fef1d020#64, 0x42038951cb574db4#64),
   (0xabcc6a3e95a6ed40#64, 0x2596d05337b6f10a#64),
   (0x085bc285f98c9a72#64, 0x91e6750da8a02cf0#64),
   (0xaba9da6479476d4e#64, 0xc6ecdb03fdc85ee6#64),
   (0xa80b96f6b0aea429#64, 0xb7e5d4018699c2f1#64),
   (0xb18a896a28d55e13#64, 0xbdbe477da56a70b3#64)]

/-- The columns picked by the bits of a number. -/
def Generator.pick (v : BitVec 128) : Nat → List (BitVec 64 × BitVec 64) → State
  | _, [] => ⟨0, 0⟩
  | n, c :: cs => xorState (if v.getLsbD n then ⟨c.1, c.2⟩ else ⟨0, 0⟩) (pick v (n + 1) cs)

theorem xorState_swap (a b c d : State) : xorState (xorState a b) (xorState c d) = xorState (xorState a c) (xorState b d) := by
  simp only [xorState, xor_swap a.s0, xor_swap a.s1]

theorem xorState_zero (a : State) : xorState a ⟨0, 0⟩ = a := by
  show State.mk (a.s0 ^^^ 0#64) (a.s1 ^^^ 0#64) = a
  rw [BitVec.xor_zero, BitVec.xor_zero]

theorem zero_xorState (a : State) : xorState ⟨0, 0⟩ a = a := by
  show State.mk (0#64 ^^^ a.s0) (0#64 ^^^ a.s1) = a
  rw [BitVec.zero_xor, BitVec.zero_xor]

theorem xorState_self (a : State) : xorState a a = ⟨0, 0⟩ := by
  show State.mk (a.s0 ^^^ a.s0) (a.s1 ^^^ a.s1) = _
  rw [BitVec.xor_self, BitVec.xor_self]
  rfl

theorem pick_xor (v w : BitVec 128) (n : Nat) (cs : List (BitVec 64 × BitVec 64)) :
    pick (v ^^^ w) n cs = xorState (pick v n cs) (pick w n cs) := by
  induction cs generalizing n with
  | nil => exact (xorState_self _).symm
  | cons c cs ih =>
    simp only [pick, ih, BitVec.getLsbD_xor]
    rw [xorState_swap (if v.getLsbD n = true then _ else _)]
    congr 1
    cases v.getLsbD n <;> cases w.getLsbD n
    · exact (xorState_self _).symm
    · exact (zero_xorState _).symm
    · exact (xorState_zero _).symm
    · exact (xorState_self _).symm

/-- The state rebuilt from the lowest bits of 128 results. -/
def Generator.rebuild (s : State) : State := pick (lows 128 s) 0 columns

theorem rebuild_add (s t : State) : rebuild (xorState s t) = xorState (rebuild s) (rebuild t) := by
  unfold rebuild
  rw [lows_add, pick_xor]

theorem rebuild_units : ∀ i < 64, rebuild ⟨BitVec.twoPow 64 i, 0⟩ = ⟨BitVec.twoPow 64 i, 0⟩ ∧
    rebuild ⟨0, BitVec.twoPow 64 i⟩ = ⟨0, BitVec.twoPow 64 i⟩ := by
  decide +kernel

/-- A map that respects bitwise addition and fixes the unit states fixes every state. -/
theorem fixes_of_units {f : State → State} (hadd : ∀ s t, f (xorState s t) = xorState (f s) (f t))
    (hu : ∀ i < 64, f ⟨BitVec.twoPow 64 i, 0⟩ = ⟨BitVec.twoPow 64 i, 0⟩ ∧ f ⟨0, BitVec.twoPow 64 i⟩ = ⟨0, BitVec.twoPow 64 i⟩)
    (s : State) : f s = s := by
  have hz : f ⟨0, 0⟩ = ⟨0, 0⟩ := by
    have h := hadd ⟨0, 0⟩ ⟨0, 0⟩
    rwa [xorState_self, xorState_self] at h
  have clear : ∀ (x : BitVec 64) (k : Nat), k < 64 → (∀ j, k + 1 ≤ j → x.getLsbD j = false) → x.getLsbD k = true →
      ∀ j, k ≤ j → (x ^^^ BitVec.twoPow 64 k).getLsbD j = false := by
    intro x k hk hx hb j hj
    rw [BitVec.getLsbD_xor, BitVec.getLsbD_twoPow]
    rcases Nat.eq_or_lt_of_le hj with rfl | h
    · simp [hb, hk]
    · simp [hx j h, Nat.ne_of_lt h]
  have back : ∀ x y : BitVec 64, (x ^^^ y) ^^^ y = x := fun x y => by
    rw [BitVec.xor_assoc, BitVec.xor_self, BitVec.xor_zero]
  have nil : ∀ x : BitVec 64, (∀ j, 0 ≤ j → x.getLsbD j = false) → x = 0 := fun x hx => by
    apply BitVec.eq_of_getLsbD_eq
    intro i _
    rw [hx i (Nat.zero_le _)]
    simp
  have h0 : ∀ (k : Nat), k ≤ 64 → ∀ x : BitVec 64, (∀ j, k ≤ j → x.getLsbD j = false) → f ⟨x, 0⟩ = ⟨x, 0⟩ := by
    intro k
    induction k with
    | zero => intro _ x hx; rw [nil x hx]; exact hz
    | succ k ih =>
      intro hk x hx
      cases hb : x.getLsbD k with
      | false =>
        refine ih (by omega) x fun j hj => ?_
        rcases Nat.eq_or_lt_of_le hj with rfl | h
        · exact hb
        · exact hx j h
      | true =>
        have h1 := ih (by omega) _ (clear x k (by omega) hx hb)
        have h2 := hadd ⟨x ^^^ BitVec.twoPow 64 k, 0⟩ ⟨BitVec.twoPow 64 k, 0⟩
        rw [h1, (hu k (by omega)).1] at h2
        have e : xorState ⟨x ^^^ BitVec.twoPow 64 k, 0⟩ ⟨BitVec.twoPow 64 k, 0⟩ = ⟨x, 0⟩ := by
          show State.mk _ _ = _
          rw [back]
          simp
        rwa [e] at h2
  have h1 : ∀ (k : Nat), k ≤ 64 → ∀ x : BitVec 64, (∀ j, k ≤ j → x.getLsbD j = false) → f ⟨0, x⟩ = ⟨0, x⟩ := by
    intro k
    induction k with
    | zero => intro _ x hx; rw [nil x hx]; exact hz
    | succ k ih =>
      intro hk x hx
      cases hb : x.getLsbD k with
      | false =>
        refine ih (by omega) x fun j hj => ?_
        rcases Nat.eq_or_lt_of_le hj with rfl | h
        · exact hb
        · exact hx j h
      | true =>
        have h1 := ih (by omega) _ (clear x k (by omega) hx hb)
        have h2 := hadd ⟨0, x ^^^ BitVec.twoPow 64 k⟩ ⟨0, BitVec.twoPow 64 k⟩
        rw [h1, (hu k (by omega)).2] at h2
        have e : xorState ⟨0, x ^^^ BitVec.twoPow 64 k⟩ ⟨0, BitVec.twoPow 64 k⟩ = ⟨0, x⟩ := by
          show State.mk _ _ = _
          rw [back]
          simp
        rwa [e] at h2
  have top : ∀ (x : BitVec 64) (j : Nat), 64 ≤ j → x.getLsbD j = false := fun x j hj => BitVec.getLsbD_of_ge x j hj
  have h2 := hadd ⟨s.s0, 0⟩ ⟨0, s.s1⟩
  rw [h0 64 (Nat.le_refl _) s.s0 (top _), h1 64 (Nat.le_refl _) s.s1 (top _)] at h2
  have e : xorState ⟨s.s0, 0⟩ ⟨0, s.s1⟩ = s := by
    show State.mk (s.s0 ^^^ 0#64) (0#64 ^^^ s.s1) = s
    rw [BitVec.xor_zero, BitVec.zero_xor]
  rwa [e] at h2

theorem rebuild_eq (s : State) : rebuild s = s := fixes_of_units rebuild_add rebuild_units s

theorem lows_injective {s t : State} (h : lows 128 s = lows 128 t) : s = t := by
  rw [← rebuild_eq s, ← rebuild_eq t]
  unfold rebuild
  rw [h]

theorem low_result (s : State) : ((next s).1 &&& 1#64) = ((s.s0 ^^^ s.s1) &&& 1#64) := by
  apply BitVec.eq_of_getLsbD_eq
  intro i _
  rw [BitVec.getLsbD_and, BitVec.getLsbD_and, BitVec.getLsbD_one]
  by_cases hi : i = 0
  · subst hi
    have e : (s.s0 + s.s1).getLsbD 0 = (s.s0 ^^^ s.s1).getLsbD 0 := by
      rw [BitVec.getLsbD_xor, BitVec.getLsbD_add (by decide)]
      simp
    have e2 : (next s).1.getLsbD 0 = (s.s0 ^^^ s.s1).getLsbD 0 := e
    rw [e2]
  · simp [hi]

theorem lows_congr {s t : State} {n : Nat}
    (h : ∀ i < n, (next (run i s)).1 &&& 1#64 = (next (run i t)).1 &&& 1#64) : lows n s = lows n t := by
  induction n generalizing s t with
  | zero => rfl
  | succ n ih =>
    have h0 : (s.s0 ^^^ s.s1) &&& 1#64 = (t.s0 ^^^ t.s1) &&& 1#64 := by
      rw [← low_result, ← low_result]
      exact h 0 (Nat.succ_pos _)
    have h1 := ih (s := (next s).2) (t := (next t).2) fun i hi => h (i + 1) (Nat.succ_lt_succ hi)
    unfold lows
    rw [h0, h1]

end DeepGNN
