import Verif.Precoding.Symbols
import Mathlib.Data.Matrix.Mul
import Mathlib.LinearAlgebra.Matrix.Notation
import Mathlib.LinearAlgebra.Matrix.NonsingularInverse
import Mathlib.LinearAlgebra.Matrix.ToLinearEquiv
import Mathlib.LinearAlgebra.Matrix.DotProduct
import Mathlib.Tactic.FinCases

/-!
# Ganesan space-time block code

`modem/precoding/space_time_block_coding.py` 154-366.
-/

namespace Verif.Precoding

open Complex ComplexConjugate Matrix

/-- What antenna `t` sends in slot `j` of a code word with data symbols `s0 s1 s2`,
`space_time_block_coding.py` 209-229. -/
noncomputable def ganesanSlot (s0 s1 s2 : ℂ) : Nat → Nat → ℂ
  | 0, 0 => s0
  | 0, 1 => 0
  | 0, 2 => s1
  | 0, 3 => -s2
  | 1, 0 => 0
  | 1, 1 => s0
  | 1, 2 => conj s2
  | 1, 3 => conj s1
  | 2, 0 => -conj s1
  | 2, 1 => -s2
  | 2, 2 => conj s0
  | 2, 3 => 0
  | 3, 0 => conj s2
  | 3, 1 => -s1
  | 3, 2 => 0
  | 3, 3 => conj s0
  | _, _ => 0

/-- The output of `Ganesan.encode_symbols`, `space_time_block_coding.py` 200-234; block `4 n + j` of
antenna `t` (`output[t, j::4] = ...[i::3]`). -/
noncomputable def ganesanEncoded (x : Stated) : Stated :=
  { streams := 4
    tx := x.tx
    blocks := x.blocks / 3 * 4
    symbols := x.symbols
    raw := fun t b k =>
      let n := b / 4
      ganesanSlot (x.raw 0 (3 * n) k) (x.raw 0 (3 * n + 1) k) (x.raw 0 (3 * n + 2) k) t (b % 4)
    states := fun _ _ _ _ => 1 }

/-- `Ganesan.encode_symbols`, `space_time_block_coding.py` 164-234. -/
noncomputable def ganesanEncode (x : Stated) (numOutput : Nat) : Except PyErr Stated :=
  if x.streams ≠ 1 then .error .value
  else if numOutput ≠ 4 then .error .runtime
  else if x.blocks % 3 ≠ 0 then .error .value
  else .ok (ganesanEncoded x)

/-- `signs_matrix`, `space_time_block_coding.py` 285-290: the lower half is the upper half with the
last three columns negated. -/
def signs : Matrix (Fin 8) (Fin 6) ℝ :=
  !![1, -1, 1, -1, -1, 1;
     1, -1, -1, -1, 1, 1;
     1, 1, 1, 1, -1, 1;
     1, 1, -1, 1, 1, 1;
     1, -1, 1, 1, 1, -1;
     1, -1, -1, 1, -1, -1;
     1, 1, 1, -1, 1, -1;
     1, 1, -1, -1, -1, -1]

/-- `index_matrix`, `space_time_block_coding.py` 291. -/
def indexMatrix : Fin 4 → Fin 3 → Nat :=
  ![![0, 2, 3], ![1, 3, 2], ![2, 0, 1], ![3, 1, 0]]

/-- `an` of one receive antenna and one symbol index, `space_time_block_coding.py` 306-312: rows are
the four slots (real, then imaginary parts), columns the three symbols (real, then imaginary parts).
`h t j` is the state of transmit antenna `t` in slot `j` of the current code word. -/
noncomputable def anMatrix (h : Nat → Nat → ℂ) : Matrix (Fin 8) (Fin 6) ℝ := fun j k =>
  let slot : Fin 4 := ⟨j.val % 4, by omega⟩
  let sym : Fin 3 := ⟨k.val % 3, by omega⟩
  let c := h (indexMatrix slot sym) slot.val
  if (j.val < 4) = (k.val < 3) then c.re else c.im

/-- `np.einsum("ikjl,jk->lijk", an, signs_matrix)`, `space_time_block_coding.py` 317. -/
noncomputable def systemMatrix (h : Nat → Nat → ℂ) : Matrix (Fin 8) (Fin 6) ℝ :=
  fun j k => anMatrix h j k * signs j k

/-- The defining (Moore-Penrose) conditions of the matrix `np.linalg.pinv(A)`. -/
structure IsPinv {m n : Type} [Fintype m] [Fintype n] (A : Matrix m n ℝ) (P : Matrix n m ℝ) : Prop where
  apa : A * P * A = A
  pap : P * A * P = P
  ap : (A * P)ᵀ = A * P
  pa : (P * A)ᵀ = P * A

/-- The contract of `np.linalg.pinv` the decoder relies on: the Moore-Penrose inverse of every matrix
with full column rank. -/
def PinvRoutine (pinv : Matrix (Fin 8) (Fin 6) ℝ → Matrix (Fin 6) (Fin 8) ℝ) : Prop :=
  ∀ A : Matrix (Fin 8) (Fin 6) ℝ, (∀ v : Fin 6 → ℝ, A.mulVec v = 0 → v = 0) → IsPinv A (pinv A)

/-- The split receive vector `b`, `space_time_block_coding.py` 321-322. -/
noncomputable def splitVec (y : Nat → ℂ) : Fin 8 → ℝ := fun j =>
  if j.val < 4 then (y (j.val % 4)).re else (y (j.val % 4)).im

/-- The output of `Ganesan.decode_symbols`, `space_time_block_coding.py` 303-339.  `pinv` is the
pseudo-inverse routine. -/
noncomputable def ganesanDecoded (pinv : Matrix (Fin 8) (Fin 6) ℝ → Matrix (Fin 6) (Fin 8) ℝ)
    (y : Stated) : Stated :=
  { streams := y.streams
    tx := 1
    blocks := y.blocks * 3 / 4
    symbols := y.symbols
    raw := fun r b k =>
      let n := b / 3
      let A := systemMatrix fun t j => y.states r t (4 * n + j) k
      let e := (pinv A).mulVec (splitVec fun j => y.raw r (4 * n + j) k)
      ⟨e ⟨b % 3, by omega⟩, e ⟨b % 3 + 3, by omega⟩⟩
    states := fun _ _ _ _ => 1 }

/-- `Ganesan.decode_symbols`, `space_time_block_coding.py` 236-339. -/
noncomputable def ganesanDecode (pinv : Matrix (Fin 8) (Fin 6) ℝ → Matrix (Fin 6) (Fin 8) ℝ)
    (y : Stated) : Except PyErr Stated :=
  if y.blocks % 4 ≠ 0 then .error .value
  else if y.tx ≠ 4 then .error .value
  else .ok (ganesanDecoded pinv y)

/-! ### Lemmas -/

/-- A pseudo-inverse of a matrix with full column rank is a left inverse. -/
theorem IsPinv.left_inverse {m n : Type} [Fintype m] [Fintype n] [DecidableEq n]
    {A : Matrix m n ℝ} {P : Matrix n m ℝ} (h : IsPinv A P)
    (hA : ∀ v : n → ℝ, A.mulVec v = 0 → v = 0) (v : n → ℝ) :
    P.mulVec (A.mulVec v) = v := by
  have h1 : A.mulVec (P.mulVec (A.mulVec v) - v) = 0 := by
    rw [Matrix.mulVec_sub, Matrix.mulVec_mulVec, Matrix.mulVec_mulVec, h.apa, sub_self]
  have := hA _ h1
  exact sub_eq_zero.mp this

/-- The real split of the three data symbols. -/
noncomputable def splitSym (s0 s1 s2 : ℂ) : Fin 6 → ℝ := ![s0.re, s1.re, s2.re, s0.im, s1.im, s2.im]

/-- The received code word, split in real and imaginary parts, is the system matrix applied to the
split data symbols. No assumption on the channel. -/
theorem systemMatrix_mulVec (h : Nat → Nat → ℂ) (s0 s1 s2 : ℂ) :
    (systemMatrix h).mulVec (splitSym s0 s1 s2) =
      splitVec fun j => ∑ t ∈ Finset.range 4, h t j * ganesanSlot s0 s1 s2 t j := by
  funext j
  fin_cases j <;>
    · simp [Matrix.mulVec, dotProduct, Fin.sum_univ_succ, systemMatrix, anMatrix, signs, indexMatrix,
        splitSym, splitVec, ganesanSlot, Finset.sum_range_succ, Fin.succ]
      ring

/-- Squared norm of the image of the system matrix for a channel that is constant over the code word:
the code is orthogonal. -/
theorem systemMatrix_normSq (g : Nat → ℂ) (v : Fin 6 → ℝ) :
    ∑ j, ((systemMatrix fun t _ => g t).mulVec v j) ^ 2 =
      (∑ t ∈ Finset.range 4, ((g t).re ^ 2 + (g t).im ^ 2)) * ∑ k, v k ^ 2 := by
  simp [Matrix.mulVec, dotProduct, Fin.sum_univ_succ, systemMatrix, anMatrix, signs, indexMatrix,
    Finset.sum_range_succ, Fin.succ]
  ring

theorem systemMatrix_injective (g : Nat → ℂ) (hg : ∃ t < 4, g t ≠ 0) (v : Fin 6 → ℝ)
    (hv : (systemMatrix fun t _ => g t).mulVec v = 0) : v = 0 := by
  have h := systemMatrix_normSq g v
  rw [hv] at h
  simp only [Pi.zero_apply, ne_eq, OfNat.ofNat_ne_zero, not_false_eq_true, zero_pow,
    Finset.sum_const_zero] at h
  have hpos : 0 < ∑ t ∈ Finset.range 4, ((g t).re ^ 2 + (g t).im ^ 2) := by
    obtain ⟨t, ht, hne⟩ := hg
    refine Finset.sum_pos' (fun _ _ => by positivity) ⟨t, Finset.mem_range.mpr ht, ?_⟩
    have : (g t).re ≠ 0 ∨ (g t).im ≠ 0 := by
      by_contra hc
      push Not at hc
      exact hne (Complex.ext hc.1 hc.2)
    rcases this with h | h <;> positivity
  have hz : ∑ k, v k ^ 2 = 0 := by
    rcases mul_eq_zero.mp h.symm with h | h
    · exact absurd h hpos.ne'
    · exact h
  funext k
  have := (Finset.sum_eq_zero_iff_of_nonneg (fun i _ => sq_nonneg (v i))).mp hz k (Finset.mem_univ k)
  simpa using this

/-! ### C11 -/

/-- C11, general form: the noise-free Ganesan round trip returns the original symbols for every
channel, constant or not, whose system matrix has full column rank in every code word; `pinv` is any
routine returning the Moore-Penrose inverse. -/
theorem C11_round_trip_full_rank
    (pinv : Matrix (Fin 8) (Fin 6) ℝ → Matrix (Fin 6) (Fin 8) ℝ)
    (hpinv : PinvRoutine pinv)
    (x : Stated) (hx : x.streams = 1) (he : x.blocks % 3 = 0)
    (numRx : Nat) (H : Nat → Nat → Nat → Nat → ℂ)
    (hH : ∀ r n k, r < numRx → 3 * n < x.blocks → k < x.symbols → ∀ v : Fin 6 → ℝ,
      (systemMatrix fun t j => H r t (4 * n + j) k).mulVec v = 0 → v = 0) :
    ∃ enc dec, ganesanEncode x 4 = .ok enc ∧ enc.streams = 4 ∧ 3 * enc.blocks = 4 * x.blocks ∧
      enc.symbols = x.symbols ∧
      ganesanDecode pinv (receive numRx H enc) = .ok dec ∧
      dec.streams = numRx ∧ dec.blocks = x.blocks ∧ dec.symbols = x.symbols ∧ dec.tx = 1 ∧
      ∀ r b k, r < numRx → b < x.blocks → k < x.symbols →
        dec.raw r b k = x.raw 0 b k ∧ dec.states r 0 b k = 1 := by
  refine ⟨ganesanEncoded x, ganesanDecoded pinv (receive numRx H (ganesanEncoded x)),
    by simp [ganesanEncode, hx, he], rfl, ?_, rfl, ?_, rfl, ?_, rfl, rfl, ?_⟩
  · simp only [ganesanEncoded]; omega
  · have : x.blocks / 3 * 4 % 4 = 0 := by omega
    simp [ganesanDecode, receive, ganesanEncoded, this]
  · simp only [ganesanDecoded, receive, ganesanEncoded]; omega
  · intro r b k hr hb hk
    refine ⟨?_, rfl⟩
    simp only [ganesanDecoded, receive, ganesanEncoded]
    generalize hn : b / 3 = n
    have hn3 : 3 * n < x.blocks := by omega
    have hvec : (splitVec fun j => ∑ t ∈ Finset.range 4, H r t (4 * n + j) k *
        ganesanSlot (x.raw 0 (3 * ((4 * n + j) / 4)) k) (x.raw 0 (3 * ((4 * n + j) / 4) + 1) k)
          (x.raw 0 (3 * ((4 * n + j) / 4) + 2) k) t ((4 * n + j) % 4)) =
        (systemMatrix fun t j => H r t (4 * n + j) k).mulVec
          (splitSym (x.raw 0 (3 * n) k) (x.raw 0 (3 * n + 1) k) (x.raw 0 (3 * n + 2) k)) := by
      rw [systemMatrix_mulVec]
      funext j
      have h1 : (4 * n + j.val % 4) / 4 = n := by omega
      have h2 : (4 * n + j.val % 4) % 4 = j.val % 4 := by omega
      simp only [splitVec, h1, h2]
    rw [hvec, (hpinv _ (hH r n k hr hn3 hk)).left_inverse (hH r n k hr hn3 hk)]
    have hb : b = 3 * n ∨ b = 3 * n + 1 ∨ b = 3 * n + 2 := by omega
    rcases hb with h | h | h
    · have : b % 3 = 0 := by omega
      simp only [this]
      have hr : x.raw 0 b k = x.raw 0 (3 * n) k := by rw [h]
      exact hr.symm ▸ rfl
    · have : b % 3 = 1 := by omega
      simp only [this]
      have hr : x.raw 0 b k = x.raw 0 (3 * n + 1) k := by rw [h]
      exact hr.symm ▸ rfl
    · have : b % 3 = 2 := by omega
      simp only [this]
      have hr : x.raw 0 b k = x.raw 0 (3 * n + 2) k := by rw [h]
      exact hr.symm ▸ rfl

/-- C11: noise-free Ganesan round trip over every four-antenna channel that is constant over each
code word and not identically zero. -/
theorem C11_round_trip
    (pinv : Matrix (Fin 8) (Fin 6) ℝ → Matrix (Fin 6) (Fin 8) ℝ)
    (hpinv : PinvRoutine pinv)
    (x : Stated) (hx : x.streams = 1) (he : x.blocks % 3 = 0)
    (numRx : Nat) (H : Nat → Nat → Nat → Nat → ℂ)
    (hconst : ∀ r t n j k, j < 4 → H r t (4 * n + j) k = H r t (4 * n) k)
    (hne : ∀ r n k, r < numRx → 3 * n < x.blocks → k < x.symbols → ∃ t < 4, H r t (4 * n) k ≠ 0) :
    ∃ enc dec, ganesanEncode x 4 = .ok enc ∧ enc.streams = 4 ∧ 3 * enc.blocks = 4 * x.blocks ∧
      enc.symbols = x.symbols ∧
      ganesanDecode pinv (receive numRx H enc) = .ok dec ∧
      dec.streams = numRx ∧ dec.blocks = x.blocks ∧ dec.symbols = x.symbols ∧ dec.tx = 1 ∧
      ∀ r b k, r < numRx → b < x.blocks → k < x.symbols →
        dec.raw r b k = x.raw 0 b k ∧ dec.states r 0 b k = 1 := by
  refine C11_round_trip_full_rank pinv hpinv x hx he numRx H ?_
  intro r n k hr hn hk v hv
  refine systemMatrix_injective (fun t => H r t (4 * n) k) (hne r n k hr hn hk) v ?_
  rw [← hv]
  congr 1
  funext a b
  have : H r (indexMatrix ⟨a.val % 4, by omega⟩ ⟨b.val % 3, by omega⟩) (4 * n + a.val % 4) k
      = H r (indexMatrix ⟨a.val % 4, by omega⟩ ⟨b.val % 3, by omega⟩) (4 * n) k :=
    hconst _ _ _ _ _ (by omega)
  simp only [systemMatrix, anMatrix, this]

/-- C11, energy: every antenna sends each data symbol once per code word, one slot is silent. -/
theorem C11_energy (s0 s1 s2 : ℂ) (t : Nat) (ht : t < 4) :
    ∑ j ∈ Finset.range 4, ‖ganesanSlot s0 s1 s2 t j‖ ^ 2 = ‖s0‖ ^ 2 + ‖s1‖ ^ 2 + ‖s2‖ ^ 2 := by
  rcases (by omega : t = 0 ∨ t = 1 ∨ t = 2 ∨ t = 3) with rfl | rfl | rfl | rfl <;>
    · simp [Finset.sum_range_succ, ganesanSlot]
      try ring

/-- C11, rejected inputs of the encoder. -/
theorem C11_rejects (x : Stated) (n : Nat) :
    (∃ e, ganesanEncode x n = .error e) ↔ (x.streams ≠ 1 ∨ n ≠ 4 ∨ x.blocks % 3 ≠ 0) := by
  unfold ganesanEncode
  by_cases h1 : x.streams = 1 <;> by_cases h2 : n = 4 <;> by_cases h3 : x.blocks % 3 = 0 <;>
    simp [h1, h2, h3]

/-- Non-vacuity of `PinvRoutine`: `(AᵀA)⁻¹Aᵀ` is such a routine. -/
theorem pinvRoutine_exists : PinvRoutine fun A => (Aᵀ * A)⁻¹ * Aᵀ := by
  intro A hA
  have hdet : IsUnit (Aᵀ * A).det := by
    rw [isUnit_iff_ne_zero]
    intro h0
    obtain ⟨v, hv, h1⟩ := Matrix.exists_mulVec_eq_zero_iff.mpr h0
    apply hv
    apply hA
    have h2 : dotProduct (A.mulVec v) (A.mulVec v) = 0 := by
      rw [Matrix.dotProduct_mulVec, Matrix.vecMul_mulVec, ← Matrix.dotProduct_mulVec,
        h1, dotProduct_zero]
    exact dotProduct_self_eq_zero.mp h2
  have hPA : (Aᵀ * A)⁻¹ * Aᵀ * A = 1 := by
    rw [Matrix.mul_assoc, Matrix.nonsing_inv_mul _ hdet]
  refine ⟨?_, ?_, ?_, ?_⟩
  · rw [Matrix.mul_assoc, hPA, Matrix.mul_one]
  · rw [hPA, Matrix.one_mul]
  · rw [Matrix.transpose_mul, Matrix.transpose_mul, Matrix.transpose_transpose,
      Matrix.transpose_nonsing_inv, Matrix.transpose_mul, Matrix.transpose_transpose,
      Matrix.mul_assoc]
  · rw [hPA, Matrix.transpose_one]

/-- Non-vacuity: a channel satisfying the hypotheses of `C11_round_trip`, different in every code
word and for every antenna. -/
example : ∃ H : Nat → Nat → Nat → Nat → ℂ,
    (∀ r t n j k, j < 4 → H r t (4 * n + j) k = H r t (4 * n) k) ∧
    (∀ r n k, ∃ t < 4, H r t (4 * n) k ≠ 0) ∧ H 0 0 0 0 ≠ H 0 1 4 0 :=
  ⟨fun r t b _ => ((b / 4 + r + t + 1 : ℕ) : ℂ),
   fun r t n j k hj => by
     have h1 : (4 * n + j) / 4 = n := by omega
     have h2 : (4 * n) / 4 = n := by omega
     simp only [h1, h2],
   fun r n k => ⟨0, by decide, Nat.cast_ne_zero.mpr (by omega)⟩, by norm_num⟩

end Verif.Precoding
