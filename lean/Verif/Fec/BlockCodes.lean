import Verif.Fec.Model
import Mathlib.Data.List.Count
import Mathlib.Data.List.Nodup

/-!
# C01, C02, C03: repetition code, block interleaver, CRC mock
-/

namespace Verif.Fec

/-! ## Specification vocabulary -/

/-- Received copies of information bit `i`: bit `m*K+i` of the code word, `m < M`
(the class documentation's `y_k = x_{k mod K}`). -/
def copiesOf (K M i : Nat) (y : List Bool) : List (Option Bool) :=
  (List.range M).map fun m => y[m * K + i]?

/-! ## C01 -/

theorem decode_column (K M : Nat) (y : List Bool) (rows : List (List Bool))
    (h : Np.reshape M K y = .ok rows) (i : Nat) (hi : i < K) :
    ∃ col, (Np.transpose K rows)[i]? = some col ∧ col.map some = copiesOf K M i y := by
  obtain ⟨hlen, hrow⟩ := Np.reshape_rows_length h
  have hT : i < (Np.transpose K rows).length := by rw [Np.transpose_length]; exact hi
  refine ⟨(Np.transpose K rows)[i], by simp [hT], ?_⟩
  have hcol : ((Np.transpose K rows)[i]).length = M := by
    rw [← hlen]
    exact Np.transpose_rows_length hrow _ (List.getElem_mem _)
  apply List.ext_getElem?
  intro m
  by_cases hm : m < M
  · have h1 := Np.transpose_get hrow m i hi
    rw [Np.reshape_get h m i hm hi] at h1
    have h2 : (Np.transpose K rows)[i]? = some (Np.transpose K rows)[i] := by simp [hT]
    rw [h2] at h1
    simp only [Option.bind_some] at h1
    have hle : m * K + i < y.length := by
      unfold Np.reshape at h
      split at h
      · next hl =>
        have : (m + 1) * K ≤ M * K := Nat.mul_le_mul_right K hm
        have e : (m + 1) * K = m * K + K := by ring
        omega
      · cases h
    simp only [copiesOf, List.getElem?_map, h1, List.getElem?_range hm, Option.map_some]
    rw [List.getElem?_eq_getElem hle]
    rfl
  · simp [copiesOf, hcol, hm]

/-- **C01 (majority law).** For an accepted configuration (`M` odd) `decode` of any word of the
correct length returns, for each information bit, the majority of its received copies. -/
theorem C01_repetition_majority (K M : Nat) (hM : M % 2 = 1) (y : List Bool)
    (hy : y.length = M * K) :
    ∃ d, repetitionDecode K M y = .ok d ∧ d.length = K ∧
      ∀ i < K, d[i]? = some (decide (M < 2 * (copiesOf K M i y).count (some true))) := by
  unfold repetitionDecode
  split
  · next h1 =>
    subst h1
    refine ⟨y, rfl, by omega, ?_⟩
    intro i hi
    have hlt : i < y.length := by omega
    have : y[i]? = some y[i] := List.getElem?_eq_getElem hlt
    simp only [copiesOf, List.range_one, List.map_cons, List.map_nil, Nat.zero_mul, Nat.zero_add,
      this]
    cases y[i] <;> rfl
  · next h1 =>
    obtain ⟨rows, hr⟩ := Np.reshape_ok hy
    refine ⟨_, by rw [hr]; rfl, by simp [Np.transpose_length], ?_⟩
    intro i hi
    obtain ⟨col, hc, hcopy⟩ := decode_column K M y rows hr i hi
    rw [List.getElem?_map, hc, Option.map_some, ← hcopy]
    have hcnt : (col.map some).count (some true) = col.count true :=
      List.count_map_of_injective _ _ (Option.some_injective _) _
    rw [hcnt]
    congr 1
    apply decide_eq_decide.mpr
    omega

theorem repetitionEncode_get (K M : Nat) (x : List Bool) (hx : x.length = K) (m i : Nat)
    (hm : m < M) (hi : i < K) : (repetitionEncode M x)[m * K + i]? = x[i]? := by
  subst hx; exact Np.tile_get M x m i hm hi

theorem count_of_few_flips (M : Nat) (hM : M % 2 = 1) (c : List (Option Bool)) (hc : c.length = M) (b : Bool)
    (h : 2 * (c.countP fun o => o != some b) < M) :
    decide (M < 2 * c.count (some true)) = b := by
  have hcp : c.length = c.countP (fun o => o == some b) + c.countP (fun o => o != some b) := by
    have := List.length_eq_countP_add_countP (l := c) (fun o => o == some b)
    simpa [bne, beq_eq_decide] using this
  cases b with
  | true =>
    have : c.count (some true) = c.countP (fun o => o == some true) := rfl
    simp only [decide_eq_true_eq]
    omega
  | false =>
    have hle : c.count (some true) ≤ c.countP (fun o => o != some false) := by
      rw [List.count]
      apply List.countP_mono_left
      intro o _ ho
      have : o = some true := by simpa using ho
      subst this
      rfl
    simp only [decide_eq_false_iff_not]
    omega

/-- **C01 (error correction).** Encoding `K` bits and flipping, for each information bit, fewer
than half of its `M` copies (in any pattern) is undone by decoding. -/
theorem C01_repetition_corrects_minority_errors (K M : Nat) (hM : M % 2 = 1)
    (x y : List Bool) (hx : x.length = K) (hy : y.length = M * K)
    (hflip : ∀ i < K, 2 * ((List.range M).countP
      fun m => y[m * K + i]? != (repetitionEncode M x)[m * K + i]?) < M) :
    repetitionDecode K M y = .ok x := by
  obtain ⟨d, hd, hlen, hbits⟩ := C01_repetition_majority K M hM y hy
  rw [hd]
  congr 1
  apply List.ext_getElem?
  intro i
  by_cases hi : i < K
  · rw [hbits i hi]
    have hxi : x[i]? = some x[i] := List.getElem?_eq_getElem (by omega)
    rw [hxi]
    congr 1
    apply count_of_few_flips M hM _ (by simp [copiesOf])
    · have := hflip i hi
      refine lt_of_le_of_lt (Nat.mul_le_mul_left 2 (le_of_eq ?_)) this
      unfold copiesOf
      rw [List.countP_map]
      apply List.countP_congr
      intro m hm
      have hm' : m < M := by simpa using hm
      rw [repetitionEncode_get K M x hx m i hm' hi, hxi]
      rfl
  · rw [List.getElem?_eq_none (by omega), List.getElem?_eq_none (by omega)]

/-- **C01 (rate).** The code word has `K*M` bits; copy `m` of bit `i` sits at `m*K+i`. -/
theorem C01_repetition_encode_layout (K M : Nat) (x : List Bool) (hx : x.length = K) :
    (repetitionEncode M x).length = M * K ∧
    ∀ m < M, ∀ i < K, (repetitionEncode M x)[m * K + i]? = x[i]? :=
  ⟨by rw [repetitionEncode, Np.tile_length, hx],
   fun m hm i hi => repetitionEncode_get K M x hx m i hm hi⟩

/-- **C01 (accepted configurations).** The constructor accepts exactly the configurations with
`K ≥ 1` and odd positive `M`; everything else is a `ValueError`. -/
theorem C01_repetition_configurations (K M : Int) :
    (repetitionNew K M = .ok (K.toNat, M.toNat) ∧ 1 ≤ K ∧ 1 ≤ M ∧ M % 2 = 1) ∨
    (repetitionNew K M = .error .value ∧ ¬ (1 ≤ K ∧ 1 ≤ M ∧ M % 2 = 1)) := by
  unfold repetitionNew
  split
  · right; exact ⟨rfl, by omega⟩
  · split
    · right; exact ⟨rfl, by omega⟩
    · split
      · right; exact ⟨rfl, by omega⟩
      · left; exact ⟨rfl, by omega, by omega, by omega⟩

-- Non-vacuity: two flips in five copies of each of two bits are corrected.
example : repetitionDecode 2 5 [false, true, true, false, true, true, true, false, true, false]
    = .ok [true, false] :=
  C01_repetition_corrects_minority_errors 2 5 rfl [true, false] _ rfl rfl (by decide)
example : (2 : Nat) * 5 = 10 ∧ repetitionNew 2 5 = .ok (2, 5) := by decide

/-! ## C02 -/

theorem interleaver_get {α : Type _} (M : Nat) (x : List α) (hM : 0 < M) (hd : M ∣ x.length) :
    ∃ y, interleaverEncode M x = .ok y ∧ y.length = x.length ∧
      ∀ r < M, ∀ c < x.length / M, y[c * M + r]? = x[r * (x.length / M) + c]? := by
  have hmod : x.length % M = 0 := Nat.mod_eq_zero_of_dvd hd
  have hmul : x.length = M * (x.length / M) := (Nat.mul_div_cancel' hd).symm
  obtain ⟨rows, hr⟩ := Np.reshape_ok hmul
  obtain ⟨hlen, hrow⟩ := Np.reshape_rows_length hr
  have hrow' := Np.transpose_rows_length hrow
  rw [hlen] at hrow'
  refine ⟨Np.flatten (Np.transpose (x.length / M) rows), ?_, ?_, ?_⟩
  · unfold interleaverEncode
    rw [if_neg (by omega), hr]
    rfl
  · unfold Np.flatten
    rw [Np.length_flatten_uniform M _ hrow', Np.transpose_length, Nat.mul_comm]
    exact hmul.symm
  · intro r hr' c hc
    unfold Np.flatten
    rw [Np.getElem?_flatten_uniform M _ hrow' c r hr', Np.transpose_get hrow r c hc,
      Np.reshape_get hr r c hr' hc]

theorem deinterleaver_get {α : Type _} (M : Nat) (y : List α) (hM : 0 < M) (hd : M ∣ y.length) :
    ∃ x, interleaverDecode M y = .ok x ∧ x.length = y.length ∧
      ∀ r < M, ∀ c < y.length / M, x[r * (y.length / M) + c]? = y[c * M + r]? := by
  have hmod : y.length % M = 0 := Nat.mod_eq_zero_of_dvd hd
  have hmul : y.length = y.length / M * M := (Nat.div_mul_cancel hd).symm
  obtain ⟨rows, hr⟩ := Np.reshape_ok hmul
  obtain ⟨hlen, hrow⟩ := Np.reshape_rows_length hr
  have hrow' := Np.transpose_rows_length hrow
  rw [hlen] at hrow'
  refine ⟨Np.flatten (Np.transpose M rows), ?_, ?_, ?_⟩
  · unfold interleaverDecode
    rw [if_neg (by omega), hr]
    rfl
  · unfold Np.flatten
    rw [Np.length_flatten_uniform (y.length / M) _ hrow', Np.transpose_length, Nat.mul_comm]
    exact hmul.symm
  · intro r hr' c hc
    unfold Np.flatten
    rw [Np.getElem?_flatten_uniform (y.length / M) _ hrow' r c hc, Np.transpose_get hrow c r hr',
      Np.reshape_get hr c r hc hr']

/-- **C02 (position law).** For `M` dividing the block length `N`, bit `c*M+r` of the interleaved
block is bit `r*(N/M)+c` of the input. -/
theorem C02_interleaver_positions {α : Type _} (M : Nat) (x : List α) (hM : 0 < M)
    (hd : M ∣ x.length) :
    ∃ y, interleaverEncode M x = .ok y ∧ y.length = x.length ∧
      ∀ r < M, ∀ c < x.length / M, y[c * M + r]? = x[r * (x.length / M) + c]? :=
  interleaver_get M x hM hd

theorem index_split (N M p : Nat) (hM : 0 < M) (hd : M ∣ N) (hp : p < N) :
    p / M < N / M ∧ p % M < M ∧ p = p / M * M + p % M := by
  refine ⟨?_, Nat.mod_lt _ hM, ?_⟩
  · obtain ⟨k, rfl⟩ := hd
    rw [Nat.mul_div_cancel_left _ hM]
    exact Nat.div_lt_of_lt_mul hp
  · rw [Nat.mul_comm]; exact (Nat.div_add_mod p M).symm

/-- **C02 (round trip).** Deinterleaving an interleaved block returns the block. -/
theorem C02_interleaver_roundtrip {α : Type _} (M : Nat) (x : List α) (hM : 0 < M)
    (hd : M ∣ x.length) :
    ∃ y, interleaverEncode M x = .ok y ∧ interleaverDecode M y = .ok x := by
  obtain ⟨y, hy, hlen, hpos⟩ := interleaver_get M x hM hd
  obtain ⟨x', hx', hlen', hpos'⟩ := deinterleaver_get M y hM (hlen ▸ hd)
  refine ⟨y, hy, ?_⟩
  rw [hx']
  congr 1
  apply List.ext_getElem?
  intro p
  by_cases hp : p < x.length
  · have hk : 0 < x.length / M :=
      Nat.div_pos (Nat.le_of_dvd (by omega) hd) hM
    have hd' : (x.length / M) ∣ x.length := Nat.div_dvd_of_dvd hd
    obtain ⟨h1, h2, h3⟩ := index_split x.length (x.length / M) p hk hd' hp
    have hMM : x.length / (x.length / M) = M :=
      Nat.div_div_self hd (by omega)
    rw [hMM] at h1
    rw [hlen] at hpos'
    rw [h3, hpos' _ h1 _ h2, hpos _ h1 _ h2]
  · rw [List.getElem?_eq_none (by omega), List.getElem?_eq_none (by omega)]

/-- **C02 (accepted configurations).** The constructor accepts exactly the positive numbers of
sub-blocks that divide the block size, and with these every block of `N` bits survives. -/
theorem C02_interleaver_configurations (N M : Nat) :
    (interleaverNew N M = .ok () ↔ 0 < M ∧ M ∣ N) ∧
    (interleaverNew N M = .ok () → ∀ bits : List Bool, bits.length = N →
      ∃ code, interleaverEncode M bits = .ok code ∧ interleaverDecode M code = .ok bits) := by
  have h1 : interleaverNew N M = .ok () ↔ 0 < M ∧ M ∣ N := by
    unfold interleaverNew
    rw [Nat.dvd_iff_mod_eq_zero]
    split
    · simp; omega
    · split
      · simp; omega
      · simp; omega
  refine ⟨h1, fun h bits hb => ?_⟩
  obtain ⟨h2, h3⟩ := h1.mp h
  exact C02_interleaver_roundtrip M bits h2 (hb ▸ h3)

/-- **C02 (round trip, receive side first).** Interleaving a deinterleaved block returns it. -/
theorem C02_deinterleaver_roundtrip {α : Type _} (M : Nat) (y : List α) (hM : 0 < M)
    (hd : M ∣ y.length) :
    ∃ x, interleaverDecode M y = .ok x ∧ interleaverEncode M x = .ok y := by
  obtain ⟨x, hx, hlen, hpos⟩ := deinterleaver_get M y hM hd
  obtain ⟨y', hy', hlen', hpos'⟩ := interleaver_get M x hM (hlen ▸ hd)
  refine ⟨x, hx, ?_⟩
  rw [hy']
  congr 1
  apply List.ext_getElem?
  intro p
  by_cases hp : p < y.length
  · obtain ⟨h1, h2, h3⟩ := index_split y.length M p hM hd hp
    rw [hlen] at hpos'
    rw [h3, hpos' _ h2 _ h1, hpos _ h2 _ h1]
  · rw [List.getElem?_eq_none (by omega), List.getElem?_eq_none (by omega)]

/-- **C02 (burst spreading).** Trace the positions by interleaving the labels `0..N-1`: two
channel positions less than `M` apart never carry bits of the same sub-block of `N/M` bits. -/
theorem C02_interleaver_spreads_bursts (N M : Nat) (hM : 0 < M) (hd : M ∣ N) :
    ∃ y, interleaverEncode M (List.range N) = .ok y ∧ y.Perm (List.range N) ∧
      ∀ p q, p < q → q < p + M → q < N →
        ∃ s t, y[p]? = some s ∧ y[q]? = some t ∧ s / (N / M) ≠ t / (N / M) := by
  obtain ⟨y, hy, hlen, hpos⟩ := interleaver_get M (List.range N) hM (by simpa using hd)
  simp only [List.length_range] at hlen hpos
  have hsrc : ∀ p < N, y[p]? = some (p % M * (N / M) + p / M) ∧
      p % M * (N / M) + p / M < N := by
    intro p hp
    obtain ⟨h1, h2, h3⟩ := index_split N M p hM hd hp
    have hN : N = M * (N / M) := (Nat.mul_div_cancel' hd).symm
    have hlt : p % M * (N / M) + p / M < N := by
      have : (p % M + 1) * (N / M) ≤ M * (N / M) := Nat.mul_le_mul_right _ h2
      have e : (p % M + 1) * (N / M) = p % M * (N / M) + N / M := by ring
      omega
    refine ⟨?_, hlt⟩
    have h := hpos _ h2 _ h1
    rw [← h3] at h
    rw [h, List.getElem?_range hlt]
  refine ⟨y, hy, ?_, ?_⟩
  · -- same length, duplicate free, same elements
    have hnd : y.Nodup := by
      rw [List.nodup_iff_injective_get]
      rintro ⟨a, ha⟩ ⟨b, hb⟩ hab
      simp only [List.get_eq_getElem] at hab
      have ha' : a < N := by omega
      have hb' : b < N := by omega
      have e1 := (hsrc a ha').1
      have e2 := (hsrc b hb').1
      rw [List.getElem?_eq_getElem ha] at e1
      rw [List.getElem?_eq_getElem hb] at e2
      simp only [Option.some.injEq] at e1 e2
      rw [hab, e2] at e1
      obtain ⟨a1, a2, a3⟩ := index_split N M a hM hd ha'
      obtain ⟨b1, b2, b3⟩ := index_split N M b hM hd hb'
      have hk : 0 < N / M := Nat.lt_of_le_of_lt (Nat.zero_le _) a1
      have hq : a % M = b % M := by
        have h1 : (a / M + (N / M) * (a % M)) / (N / M) = a % M := by
          rw [Nat.add_mul_div_left _ _ hk, Nat.div_eq_of_lt a1, Nat.zero_add]
        have h2 : (b / M + (N / M) * (b % M)) / (N / M) = b % M := by
          rw [Nat.add_mul_div_left _ _ hk, Nat.div_eq_of_lt b1, Nat.zero_add]
        rw [← h1, ← h2]
        congr 1
        nlinarith [e1]
      have hr : a / M = b / M := by rw [hq] at e1; omega
      have : a = b := by rw [a3, b3, hq, hr]
      simp [this]
    have hmem : ∀ v ∈ y, v ∈ List.range N := by
      intro v hv
      obtain ⟨p, hp, rfl⟩ := List.getElem_of_mem hv
      have hp' : p < N := by omega
      obtain ⟨e1, e2⟩ := hsrc p hp'
      rw [List.getElem?_eq_getElem hp] at e1
      simp only [Option.some.injEq] at e1
      rw [e1]
      simpa using e2
    have hsub : y.Subperm (List.range N) := List.subperm_of_subset hnd hmem
    exact hsub.perm_of_length_le (by simp [hlen])
  · intro p q hpq hq hqN
    have hp' : p < N := by omega
    refine ⟨_, _, (hsrc p hp').1, (hsrc q hqN).1, ?_⟩
    obtain ⟨p1, p2, p3⟩ := index_split N M p hM hd hp'
    obtain ⟨q1, q2, q3⟩ := index_split N M q hM hd hqN
    have hk : 0 < N / M := Nat.lt_of_le_of_lt (Nat.zero_le _) p1
    have h1 : (p % M * (N / M) + p / M) / (N / M) = p % M := by
      rw [Nat.add_comm, Nat.add_mul_div_right _ _ hk, Nat.div_eq_of_lt p1, Nat.zero_add]
    have h2 : (q % M * (N / M) + q / M) / (N / M) = q % M := by
      rw [Nat.add_comm, Nat.add_mul_div_right _ _ hk, Nat.div_eq_of_lt q1, Nat.zero_add]
    rw [h1, h2]
    intro heq
    rcases Nat.lt_or_ge (p / M) (q / M) with hlt | hge
    · have : (p / M + 1) * M ≤ q / M * M := Nat.mul_le_mul_right M hlt
      have e : (p / M + 1) * M = p / M * M + M := by ring
      omega
    · have : q / M * M ≤ p / M * M := Nat.mul_le_mul_right M hge
      omega

/-- **C02 (error branch).** A block that cannot be divided into `M` sub-blocks is rejected with a
`ValueError` by both directions. -/
theorem C02_interleaver_rejects {α : Type _} (M : Nat) (x : List α) (h : ¬ (0 < M ∧ M ∣ x.length)) :
    interleaverEncode M x = .error .value ∧ interleaverDecode M x = .error .value := by
  have h' : M = 0 ∨ x.length % M ≠ 0 := by
    rcases Nat.eq_zero_or_pos M with h0 | h0
    · exact Or.inl h0
    · right
      intro hm
      exact h ⟨h0, Nat.dvd_of_mod_eq_zero hm⟩
  exact ⟨by unfold interleaverEncode; rw [if_pos h'], by unfold interleaverDecode; rw [if_pos h']⟩

-- Non-vacuity
example : interleaverEncode 3 [0, 1, 2, 3, 4, 5] = .ok [0, 2, 4, 1, 3, 5] := by decide
example : (0 < 3) ∧ 3 ∣ [0, 1, 2, 3, 4, 5].length := by decide
example : interleaverEncode 4 [0, 1, 2, 3, 4, 5] = .error .value := by decide

/-! ## C03 -/

/-- **C03 (partial: at least one check bit).** For every outcome `check` of the random generator,
decoding recovers the block; the code word starts with the block and has `K+Q` bits.
Missing from the full statement: `Q = 0`, which the code accepts and gets wrong
(`C03_crc_without_check_bits_fails`). -/
theorem C03_crc_roundtrip_partial (Q : Nat) (hQ : 1 ≤ Q) (check data : List Bool)
    (hc : check.length = Q) :
    crcDecode Q (crcEncode check data) = data ∧
    (crcEncode check data).length = data.length + Q ∧ data <+: crcEncode check data := by
  refine ⟨?_, by simp [crcEncode, hc], by simp [crcEncode]⟩
  have hneg : -(Q : Int) < 0 := by omega
  unfold crcDecode pySliceTo crcEncode
  rw [if_pos hneg]
  simp [hc]

/-- **C03 (negation).** With zero check bits, a configuration the constructor accepts, decoding
returns an empty block: every non-empty block is lost. -/
theorem C03_crc_without_check_bits_fails :
    crcNew 8 0 = .ok (8, 0) ∧
    ∀ data : List Bool, data ≠ [] → crcDecode 0 (crcEncode [] data) = [] ∧
      crcDecode 0 (crcEncode [] data) ≠ data := by
  refine ⟨by decide, fun data hd => ?_⟩
  have : crcDecode 0 (crcEncode [] data) = [] := by simp [crcDecode, pySliceTo]
  exact ⟨this, by rw [this]; exact hd.symm⟩

example : crcDecode 2 (crcEncode [true, false] [true, true, false]) = [true, true, false] :=
  (C03_crc_roundtrip_partial 2 (by decide) [true, false] _ rfl).1

end Verif.Fec
