import Verif.Np
import Mathlib.Analysis.Complex.Basic
import Mathlib.Algebra.BigOperators.Intervals
import Mathlib.Data.List.GetD
import Mathlib.Tactic.LinearCombination

/-!
# C135: power amplifiers identified from measurements

`FromMeasurements` and `model` of `MemoryPolynomialPowerAmplifier` and `MemoryCTPolynomialPowerAmplifier` of
`hermespy/simulation/rf/blocks/amps.py`.  Samples are exact complex numbers.  Matrices are functions of their indices, flattened
as the code flattens them.  The least squares solver of scipy is a contract: it returns a minimiser.
-/

namespace Verif.Measured

open Verif (PyErr)
open Finset

/-! ### Model -/

/-- A vector of samples. -/
abbrev Vec := List ℂ

/-- The sample `m` steps before the last one of window `n`: `windows[n, m]`, `simulation/rf/blocks/amps.py` 718 and 734-736, and `sidePlane[m, 0, n]`,
`simulation/rf/blocks/amps.py` 820-821 and 845-846. -/
def past (M : ℕ) (x : Vec) (n m : ℕ) : ℂ := x.getD (n + (M - 1 - m)) 0

/-- A feature of the memory polynomial, by row and flattened column, `simulation/rf/blocks/amps.py` 719-724 and 737-742: orders first, then memory. -/
noncomputable def polyFeature (M : ℕ) (x : Vec) (n c : ℕ) : ℂ :=
  past M x n (c % M) * ((‖past M x n (c % M)‖ ^ (c / M) : ℝ) : ℂ)

/-- An entry of `topPlane`, `simulation/rf/blocks/amps.py` 814-819 and 839-844: one, or a power of the amplitude of a sample.  The flat index `pow_idx`
is `n` plus a number counting the memory down, plus a whole number of columns of `absPow`. -/
noncomputable def topPlane (M : ℕ) (x : Vec) (n t : ℕ) : ℝ :=
  if t = 0 then 1 else
    let N := x.length
    let idx := n + (M - (t - 1) % M + (t - 1) / M * N) - 1
    ‖x.getD (idx % N) 0‖ ^ (idx / N + 1)

/-- A feature of the cross-term polynomial, by row and flattened column, `simulation/rf/blocks/amps.py` 822-826 and 847-851: memory first. -/
noncomputable def crossFeature (M : ℕ) (x : Vec) (n c : ℕ) : ℂ :=
  past M x n (c % M) * (topPlane M x n (c / M) : ℂ)

/-- `ravel(order="F")` of a matrix with `M` rows. -/
def ravelF (M : ℕ) (A : ℕ → ℕ → ℂ) (c : ℕ) : ℂ := A (c % M) (c / M)

/-- `reshape(M, -1, order="F")` of a vector. -/
def reshapeF (M : ℕ) (v : ℕ → ℂ) (m k : ℕ) : ℂ := v (k * M + m)

/-- The product of features with a vector of `C` coefficients, `simulation/rf/blocks/amps.py` 743 and 852. -/
noncomputable def respond (F : ℕ → ℕ → ℂ) (C : ℕ) (v : ℕ → ℂ) (n : ℕ) : ℂ := ∑ c ∈ range C, F n c * v c

/-- The number of windows. -/
def windows (M : ℕ) (x : Vec) : ℕ := x.length - M + 1

/-- The output samples of `MemoryPolynomialPowerAmplifier.model`, `simulation/rf/blocks/amps.py` 731-743, for a vector not shorter than the memory. -/
noncomputable def polyModel (M K : ℕ) (A : ℕ → ℕ → ℂ) (x : Vec) : Vec :=
  (List.range (windows M x)).map (respond (polyFeature M x) (K * M) (ravelF M A))

/-- The output samples of `MemoryCTPolynomialPowerAmplifier.model`, `simulation/rf/blocks/amps.py` 833-852, for a vector. -/
noncomputable def crossModel (M K : ℕ) (A : ℕ → ℕ → ℂ) (x : Vec) : Vec :=
  (List.range (windows M x)).map (respond (crossFeature M x) ((M * (K - 1) + 1) * M) (ravelF M A))

/-- The sum of squared residuals of coefficients. -/
noncomputable def residual (F : ℕ → ℕ → ℂ) (R C : ℕ) (v : ℕ → ℂ) (y : ℕ → ℂ) : ℝ :=
  ∑ n ∈ range R, ‖respond F C v n - y n‖ ^ 2

/-- `scipy.linalg.lstsq`: a minimiser of the residual. -/
def Lstsq (F : ℕ → ℕ → ℂ) (R C : ℕ) (y v : ℕ → ℂ) : Prop := ∀ w, residual F R C v y ≤ residual F R C w y

/-- `MemoryPolynomialPowerAmplifier.FromMeasurements`, `simulation/rf/blocks/amps.py` 698-728: coefficients that may be returned. -/
def PolyFit (M K : ℕ) (x y : Vec) (A : ℕ → ℕ → ℂ) : Prop :=
  ∃ v, Lstsq (polyFeature M x) (windows M x) (K * M) (fun n => y.getD (n + (M - 1)) 0) v ∧ A = reshapeF M v

/-- `MemoryCTPolynomialPowerAmplifier.FromMeasurements`, `simulation/rf/blocks/amps.py` 791-830. -/
def CrossFit (M K : ℕ) (x y : Vec) (A : ℕ → ℕ → ℂ) : Prop :=
  ∃ v, Lstsq (crossFeature M x) (windows M x) ((M * (K - 1) + 1) * M) (fun n => y.getD (n + (M - 1)) 0) v ∧ A = reshapeF M v

/-- `MemoryCTPolynomialPowerAmplifier.model` of a signal, `simulation/rf/blocks/amps.py` 833-855: whatever the steps before make of the array of the
signal, the product of a matrix with a vector is a vector, and `RFSignal.FromNDArray`, `simulation/rf/signal.py` 186-188, refuses arrays
that do not have two dimensions. -/
def crossSignal (steps : Except PyErr Vec) : Except PyErr Vec := do
  let out ← steps
  let shape := [out.length]
  if shape.length ≠ 2 then .error .value else .ok out

/-! ### Amplifiers as published -/

/-- Equation 19 of Morgan et al., 2006: the output at a time. -/
noncomputable def morgan19 (M K : ℕ) (A : ℕ → ℕ → ℂ) (x : Vec) (t : ℕ) : ℂ :=
  ∑ m ∈ range M, ∑ k ∈ range K, A m k * x.getD (t - m) 0 * ((‖x.getD (t - m) 0‖ ^ k : ℝ) : ℂ)

/-- Equation 23 of Morgan et al., 2006, with the cross terms of order `k + 1` and lag `j` in column `1 + k M + j`. -/
noncomputable def morgan23 (M K : ℕ) (A : ℕ → ℕ → ℂ) (x : Vec) (t : ℕ) : ℂ :=
  ∑ m ∈ range M, x.getD (t - m) 0 *
    (A m 0 + ∑ k ∈ range (K - 1), ∑ j ∈ range M, A m (1 + (k * M + j)) * ((‖x.getD (t - j) 0‖ ^ (k + 1) : ℝ) : ℂ))

/-! ### Lemmas -/

theorem sum_mul (a b : ℕ) (f : ℕ → ℂ) : ∑ q ∈ range (a * b), f q = ∑ i ∈ range a, ∑ j ∈ range b, f (i * b + j) := by
  induction a with
  | zero => simp
  | succ a ih => rw [Nat.succ_mul, Finset.sum_range_add, ih, Finset.sum_range_succ]

theorem mod_div {M m : ℕ} (k : ℕ) (h : m < M) : (k * M + m) % M = m ∧ (k * M + m) / M = k := by
  constructor
  · rw [mul_comm, Nat.mul_add_mod, Nat.mod_eq_of_lt h]
  · rw [mul_comm, Nat.mul_add_div (by omega), Nat.div_eq_of_lt h, add_zero]

theorem past_eq (M : ℕ) (x : Vec) (n m : ℕ) (h : m < M) : past M x n m = x.getD (n + (M - 1) - m) 0 := by
  unfold past
  congr 1
  omega

/-- The response to features of equation 19. -/
theorem respond_poly (M K : ℕ) (A : ℕ → ℕ → ℂ) (x : Vec) (n : ℕ) :
    respond (polyFeature M x) (K * M) (ravelF M A) n = morgan19 M K A x (n + (M - 1)) := by
  unfold respond morgan19
  rw [sum_mul, sum_comm]
  refine sum_congr rfl fun m hm => sum_congr rfl fun k _ => ?_
  have hm' := mem_range.mp hm
  obtain ⟨h1, h2⟩ := mod_div k hm'
  unfold polyFeature ravelF
  rw [h1, h2, past_eq M x n m hm']
  ring

theorem top_eq (M : ℕ) (x : Vec) (n k j : ℕ) (hj : j < M) (hn : n + M ≤ x.length) :
    topPlane M x n (1 + (k * M + j)) = ‖x.getD (n + (M - 1) - j) 0‖ ^ (k + 1) := by
  obtain ⟨h1, h2⟩ := mod_div k hj
  unfold topPlane
  rw [if_neg (by omega)]
  dsimp only
  rw [Nat.add_sub_cancel_left, h1, h2]
  have e : n + (M - j + k * x.length) - 1 = k * x.length + (n + (M - 1) - j) := by omega
  obtain ⟨h3, h4⟩ := mod_div (M := x.length) (m := n + (M - 1) - j) k (by omega)
  rw [e, h3, h4]

/-- The response to features of equation 23. -/
theorem respond_cross (M K : ℕ) (A : ℕ → ℕ → ℂ) (x : Vec) (n : ℕ) (hn : n + M ≤ x.length) :
    respond (crossFeature M x) ((M * (K - 1) + 1) * M) (ravelF M A) n = morgan23 M K A x (n + (M - 1)) := by
  unfold respond morgan23
  rw [sum_mul, sum_comm]
  refine sum_congr rfl fun m hm => ?_
  have hm' := mem_range.mp hm
  rw [sum_range_succ', mul_add, mul_sum, add_comm]
  congr 1
  · obtain ⟨h1, h2⟩ := mod_div 0 hm'
    unfold crossFeature ravelF
    rw [h1, h2, past_eq M x n m hm', topPlane, if_pos rfl]
    simp
  · rw [mul_comm M, sum_mul]
    refine sum_congr rfl fun k _ => ?_
    rw [mul_sum]
    refine sum_congr rfl fun j hj => ?_
    have hj' := mem_range.mp hj
    obtain ⟨h1, h2⟩ := mod_div (k * M + j + 1) hm'
    unfold crossFeature ravelF
    rw [h1, h2, past_eq M x n m hm', show k * M + j + 1 = 1 + (k * M + j) by ring, top_eq M x n k j hj' hn]
    ring

theorem ravel_reshape (M : ℕ) (v : ℕ → ℂ) (c : ℕ) : ravelF M (reshapeF M v) c = v c := by
  unfold ravelF reshapeF
  rw [mul_comm, Nat.div_add_mod]

theorem residual_nonneg (F : ℕ → ℕ → ℂ) (R C : ℕ) (v y : ℕ → ℂ) : 0 ≤ residual F R C v y :=
  sum_nonneg fun _ _ => by positivity

theorem residual_zero (F : ℕ → ℕ → ℂ) (R C : ℕ) (v y : ℕ → ℂ) : residual F R C v y = 0 ↔ ∀ n < R, respond F C v n = y n := by
  unfold residual
  rw [sum_eq_zero_iff_of_nonneg fun _ _ => by positivity]
  constructor
  · intro h n hn
    have := h n (mem_range.mpr hn)
    rw [sq_eq_zero_iff, norm_eq_zero, sub_eq_zero] at this
    exact this
  · intro h n hn
    rw [h n (mem_range.mp hn), sub_self, norm_zero]
    norm_num

theorem lstsq_exact (F : ℕ → ℕ → ℂ) (R C : ℕ) (y v w : ℕ → ℂ) (hv : Lstsq F R C y v) (hw : ∀ n < R, respond F C w n = y n) :
    ∀ n < R, respond F C v n = y n := by
  rw [← residual_zero] at hw ⊢
  have := hv w
  rw [hw] at this
  exact le_antisymm this (residual_nonneg _ _ _ _ _)

theorem model_getD (f : ℕ → ℂ) (R n : ℕ) (hn : n < R) : ((List.range R).map f).getD n 0 = f n := by
  rw [List.getD_eq_getElem _ _ (by simpa using hn), List.getElem_map, List.getElem_range]

/-! ### C135 -/

/-- C135, memory polynomials: the response to a vector is that of equation 19, from the first time on at which the memory is
filled. -/
theorem C135_polynomial (M K : ℕ) (A : ℕ → ℕ → ℂ) (x : Vec) (n : ℕ) (hn : n < windows M x) :
    (polyModel M K A x).getD n 0 = morgan19 M K A x (n + (M - 1)) := by
  unfold polyModel
  rw [model_getD _ _ _ hn, respond_poly]

/-- C135, cross terms: the response to a vector not shorter than the memory is that of equation 23. -/
theorem C135_cross (M K : ℕ) (A : ℕ → ℕ → ℂ) (x : Vec) (hM : M ≤ x.length) (n : ℕ) (hn : n < windows M x) :
    (crossModel M K A x).getD n 0 = morgan23 M K A x (n + (M - 1)) := by
  unfold crossModel
  rw [model_getD _ _ _ hn, respond_cross M K A x n (by unfold windows at hn; omega)]

/-- C135, best fit: no amplifier of the same memory and order fits the measurements better than the one returned. -/
theorem C135_best_polynomial (M K : ℕ) (x y : Vec) (A : ℕ → ℕ → ℂ) (h : PolyFit M K x y A) (B : ℕ → ℕ → ℂ) :
    ∑ n ∈ range (windows M x), ‖morgan19 M K A x (n + (M - 1)) - y.getD (n + (M - 1)) 0‖ ^ 2 ≤
      ∑ n ∈ range (windows M x), ‖morgan19 M K B x (n + (M - 1)) - y.getD (n + (M - 1)) 0‖ ^ 2 := by
  obtain ⟨v, hv, rfl⟩ := h
  have hw := hv (ravelF M B)
  unfold residual at hw
  simp only [respond_poly] at hw
  refine le_trans (le_of_eq ?_) hw
  refine sum_congr rfl fun n _ => ?_
  rw [← respond_poly]
  simp only [respond, ravel_reshape M]

/-- C135, best fit with cross terms. -/
theorem C135_best_cross (M K : ℕ) (x y : Vec) (hx : M ≤ x.length) (A : ℕ → ℕ → ℂ) (h : CrossFit M K x y A)
    (B : ℕ → ℕ → ℂ) :
    ∑ n ∈ range (windows M x), ‖morgan23 M K A x (n + (M - 1)) - y.getD (n + (M - 1)) 0‖ ^ 2 ≤
      ∑ n ∈ range (windows M x), ‖morgan23 M K B x (n + (M - 1)) - y.getD (n + (M - 1)) 0‖ ^ 2 := by
  obtain ⟨v, hv, rfl⟩ := h
  have hw := hv (ravelF M B)
  unfold residual at hw
  have hb : ∀ n ∈ range (windows M x), n + M ≤ x.length := by
    intro n hn
    have := mem_range.mp hn
    unfold windows at this
    omega
  refine le_trans (le_of_eq ?_) (hw.trans (le_of_eq ?_))
  · refine sum_congr rfl fun n hn => ?_
    rw [← respond_cross M K _ x n (hb n hn)]
    simp only [respond, ravel_reshape M]
  · refine sum_congr rfl fun n hn => ?_
    rw [respond_cross M K _ x n (hb n hn)]

/-- C135, recovery: measurements of an amplifier of the given memory and order are reproduced exactly, and if the measured input
tells all such amplifiers apart, its coefficients are returned. -/
theorem C135_recovery (M K : ℕ) (x y : Vec) (A B : ℕ → ℕ → ℂ) (h : PolyFit M K x y A)
    (hy : ∀ n < windows M x, y.getD (n + (M - 1)) 0 = morgan19 M K B x (n + (M - 1))) :
    (∀ n < windows M x, (polyModel M K A x).getD n 0 = y.getD (n + (M - 1)) 0) ∧
      ((∀ D : ℕ → ℕ → ℂ, (∀ n < windows M x, morgan19 M K D x (n + (M - 1)) = 0) → ∀ m < M, ∀ k < K, D m k = 0) →
        ∀ m < M, ∀ k < K, A m k = B m k) := by
  obtain ⟨v, hv, rfl⟩ := h
  have hex := lstsq_exact _ _ _ _ v (ravelF M B) hv fun n hn => by rw [respond_poly, hy n hn]
  have hex' : ∀ n < windows M x, morgan19 M K (reshapeF M v) x (n + (M - 1)) = y.getD (n + (M - 1)) 0 := by
    intro n hn
    rw [← hex n hn, ← respond_poly]
    simp only [respond, ravel_reshape M]
  refine ⟨fun n hn => by rw [C135_polynomial M K _ x n hn, hex' n hn], fun hD m hm k hk => ?_⟩
  have := hD (fun i j => reshapeF M v i j - B i j) (fun n hn => by
    have e : morgan19 M K (fun i j => reshapeF M v i j - B i j) x (n + (M - 1)) =
        morgan19 M K (reshapeF M v) x (n + (M - 1)) - morgan19 M K B x (n + (M - 1)) := by
      unfold morgan19
      rw [← sum_sub_distrib]
      refine sum_congr rfl fun i _ => ?_
      rw [← sum_sub_distrib]
      exact sum_congr rfl fun j _ => by ring
    rw [e, hex' n hn, hy n hn, sub_self]) m hm k hk
  exact sub_eq_zero.mp this

/-- Inputs telling amplifiers apart exist: amplitudes one and two for two orders without memory. -/
example : ∀ D : ℕ → ℕ → ℂ, (∀ n < windows 1 [1, 2], morgan19 1 2 D [1, 2] (n + (1 - 1)) = 0) → ∀ m < 1, ∀ k < 2, D m k = 0 := by
  intro D h m hm k hk
  have h0 := h 0 (by decide)
  have h1 := h 1 (by decide)
  simp [morgan19, sum_range_succ] at h0 h1
  obtain rfl : m = 0 := by omega
  have e0 : D 0 0 = 0 := by linear_combination 2 * h0 - h1 / 2
  have e1 : D 0 1 = 0 := by linear_combination h1 / 2 - h0
  have : k = 0 ∨ k = 1 := by omega
  rcases this with rfl | rfl
  · exact e0
  · exact e1

/-- C135 fails for inputs of constant amplitude: amplifiers that differ are measured alike, so that the coefficients returned
need not be those measured. -/
theorem C135_modulus_fails (M : ℕ) (hM : 0 < M) (x : Vec) (hx : ∀ t, ‖x.getD t 0‖ = 1 ∨ x.getD t 0 = 0) (y : Vec) (A : ℕ → ℕ → ℂ)
    (h : PolyFit M 2 x y A) : ∃ B, PolyFit M 2 x y B ∧ B 0 0 = A 0 0 + 1 ∧ B 0 1 = A 0 1 - 1 := by
  obtain ⟨v, hv, rfl⟩ := h
  set D : ℕ → ℂ := fun c => if c = 0 then 1 else if c = M then -1 else 0 with hD
  have hadd : ∀ n, respond (polyFeature M x) (2 * M) (fun c => v c + D c) n = respond (polyFeature M x) (2 * M) v n := by
    intro n
    unfold respond
    have : ∑ c ∈ range (2 * M), polyFeature M x n c * D c = 0 := by
      rw [two_mul, sum_range_add, sum_eq_single 0, sum_eq_single 0]
      · have h1 : polyFeature M x n (M + 0) = polyFeature M x n 0 := by
          unfold polyFeature
          rw [add_zero, Nat.mod_self, Nat.zero_mod, Nat.div_self hM, Nat.zero_div]
          unfold past
          rcases hx (n + (M - 1 - 0)) with e | e
          · rw [e]; simp
          · rw [e]; simp
        rw [h1, hD]
        simp [hM.ne']
      · intro b hb hb0
        have := mem_range.mp hb
        rw [hD]
        simp [hb0, hM.ne']
      · intro hh; exact absurd (mem_range.mpr hM) hh
      · intro b hb hb0
        have := mem_range.mp hb
        rw [hD]
        simp [hb0, this.ne]
      · intro hh; exact absurd (mem_range.mpr hM) hh
    rw [sum_congr rfl fun c _ => mul_add _ _ _, sum_add_distrib, this, add_zero]
  refine ⟨reshapeF M fun c => v c + D c, ⟨_, ?_, rfl⟩, ?_, ?_⟩
  · intro w
    have := hv w
    unfold residual at this ⊢
    simp only [hadd]
    exact this
  · simp [reshapeF, hD]
  · simp [reshapeF, hD, hM.ne']
    ring

example : ∀ t, ‖([1, -1, Complex.I] : Vec).getD t 0‖ = 1 ∨ ([1, -1, Complex.I] : Vec).getD t 0 = 0
  | 0 => by simp
  | 1 => by simp
  | 2 => by simp
  | t + 3 => by simp

/-- C135 fails in time: samples are missing and what remains comes too early.  An amplifier that passes its input on, with a
memory it does not use, drops the first samples. -/
theorem C135_time_fails (M : ℕ) (hM : 2 ≤ M) (x : Vec) (hx : M ≤ x.length) :
    polyModel M 1 (fun m _ => if m = 0 then 1 else 0) x = x.drop (M - 1) := by
  apply List.ext_getElem
  · simp only [polyModel, List.length_map, List.length_range, windows, List.length_drop]
    omega
  · intro n h1 h2
    have hw : n < windows M x := by simpa [polyModel] using h1
    have e := C135_polynomial M 1 (fun m _ => if m = 0 then 1 else 0) x n hw
    rw [List.getD_eq_getElem _ _ h1] at e
    rw [e, List.getElem_drop]
    unfold morgan19
    rw [sum_eq_single 0]
    · simp only [if_true, sum_range_one, pow_zero, Complex.ofReal_one, mul_one, one_mul, Nat.sub_zero]
      rw [List.getD_eq_getElem _ _ (by rw [List.length_drop] at h2; omega)]
      congr 1
      omega
    · intro m _ hm
      simp [hm]
    · intro hh
      exact absurd (mem_range.mpr (by omega)) hh

/-- C135 fails in use: no signal comes out of the amplifier with cross terms. -/
theorem C135_signal_fails (steps : Except PyErr Vec) (r : Vec) : crossSignal steps ≠ .ok r := by
  cases steps with
  | error e => intro h; cases h
  | ok out => intro h; cases h

end Verif.Measured
