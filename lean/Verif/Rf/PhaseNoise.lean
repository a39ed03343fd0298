import Verif.Rf.Signal
import Verif.Sim.White
import Mathlib.RingTheory.PowerSeries.Derivative
import Mathlib.Data.Nat.Choose.Central
import Mathlib.Analysis.SpecialFunctions.Trigonometric.Deriv
import Mathlib.Analysis.SpecialFunctions.Pow.Real

/-!
# C101: phase noise of oscillators

`hermespy/simulation/rf/noise/phase_noise.py` and `rf/blocks/source.py`.  `z seed k ω` is the number drawn `k`-th from the generator
of a seed, as in C99.
-/

namespace Verif.PhaseNoise

open MeasureTheory Verif.Noise Verif.Rf.Sig
open scoped Real

/-- `OscillatorPhaseNoise`, `phase_noise.py` 203-211. -/
structure Oscillator where
  K0 : ℝ
  K2 : ℝ
  K3 : ℝ
  seed : Option ℕ

/-- `OscillatorPhaseNoise.__init__`, `phase_noise.py` 213-234, with the setters, lines 280-318. -/
noncomputable def new (K0 K2 K3 : ℝ) (seed : Option ℕ) : Except PyErr Oscillator :=
  if K0 < 0 then .error .value
  else if K2 < 0 then .error .value
  else if K3 < 0 then .error .value
  else .ok ⟨K0, K2, K3, seed⟩

/-- Element `k` of `__w3_filter_coefficients`, `phase_noise.py` 125-127. -/
noncomputable def coefficient : ℕ → ℝ
  | 0 => 1
  | k + 1 => (1.5 + ((k + 1 : ℕ) : ℝ) - 1) * coefficient k / ((k + 1 : ℕ) : ℝ)

/-- `__w3_filter_coefficients`, `phase_noise.py` 114-128. -/
noncomputable def coefficients (n : ℕ) : List ℝ := (List.range n).map coefficient

/-- `scipy.signal.lfilter`, with a leading coefficient of one in the denominator: sample `t` of the filtered signal. -/
noncomputable def lfilter (b a : List ℝ) (x : ℕ → ℝ) (t : ℕ) : ℝ :=
  ∑ k : Fin (t + 1), b.getD (t - k) 0 * x k - ∑ k : Fin t, a.getD (t - k) 0 * lfilter b a x k
termination_by t
decreasing_by exact k.2

/-- Variances, `phase_noise.py` 154-159. -/
noncomputable def Oscillator.var0 (o : Oscillator) (rate : ℝ) : ℝ := o.K0 / (1 / rate)
noncomputable def Oscillator.var2 (o : Oscillator) (rate : ℝ) : ℝ := 4 * o.K2 * (1 / rate) * π ^ 2
noncomputable def Oscillator.var3 (o : Oscillator) (rate : ℝ) : ℝ := 8 * o.K3 * (1 / rate) ^ 2 * π ^ 3

/-- `rng.normal(0.0, var**0.5, (S, N))` after `p` numbers were drawn. -/
noncomputable def normal (z : ℕ → ℝ) (p : ℕ) (var : ℝ) (N a t : ℕ) : ℝ := var ^ (0.5 : ℝ) * z (p + (a * N + t))

/-- `_get_noise_samples`, `phase_noise.py` 160-188: sample `t` of stream `a`, for `S` streams of `N` samples. -/
noncomputable def Oscillator.noise (o : Oscillator) (z : ℕ → ℝ) (S N : ℕ) (rate : ℝ) (a t : ℕ) : ℝ :=
  let p2 := if 0 < o.var0 rate then S * N else 0
  let p3 := if 0 < o.var2 rate then p2 + S * N else p2
  let phi0 := if 0 < o.var0 rate then normal z 0 (o.var0 rate) N a t else 0
  let phi2 := if 0 < o.var2 rate then lfilter [1, 0] [1, -1] (normal z p2 (o.var2 rate) N a) t else 0
  let phi3 := if 0 < o.var3 rate then lfilter (coefficients N) [1] (normal z p3 (o.var3 rate) N a) t else 0
  phi0 + phi2 + phi3

/-- `OscillatorPhaseNoiseRealization.add_noise`, `phase_noise.py` 190-200. -/
noncomputable def Oscillator.addNoise (o : Oscillator) (z : ℕ → ℝ) (s : RfSignal ℂ) : Except PyErr (RfSignal ℂ) :=
  if s.rows.length * s.samples = 0 then .ok s
  else finalize s (s.rows.mapIdx fun a row => row.mapIdx fun t x =>
    x * Complex.exp (Complex.I * o.noise z s.rows.length s.samples s.rate a t)) s.samples

/-- `Source._propagate`, `source.py` 204-214. -/
noncomputable def oscillate (o : Oscillator) (z : ℕ → ℝ) (amplitude : ℝ) (rate f : ℚ) (samples : ℕ) : Except PyErr (RfSignal ℂ) :=
  match source (amplitude : ℂ) rate f samples with
  | .error e => .error e
  | .ok s => o.addNoise z s

/-! ### Filters -/

theorem coefficients_getD (n k : ℕ) (h : k < n) : (coefficients n).getD k 0 = coefficient k := by
  unfold coefficients
  rw [List.getD_eq_getElem?_getD, List.getElem?_map, List.getElem?_range h]
  rfl

/-- The integrator. -/
theorem lfilter_sum (x : ℕ → ℝ) (t : ℕ) : lfilter [1, 0] [1, -1] x t = ∑ k ∈ Finset.range (t + 1), x k := by
  induction t with
  | zero => rw [lfilter]; simp
  | succ t ih =>
    have h1 : ∀ k : Fin (t + 1), List.getD [(1 : ℝ), 0] (t + 1 - ((Fin.castSucc k : Fin (t + 2)) : ℕ)) 0 * x (Fin.castSucc k : Fin (t + 2)) = 0 := by
      intro k
      have hk : (Fin.castSucc k : Fin (t + 2)).val = k.val := rfl
      have : t + 1 - k.val = (t - k.val) + 1 := by omega
      rw [hk, this]
      cases h : t - k.val <;> simp
    have h2 : ∀ k : Fin t, List.getD [(1 : ℝ), -1] (t + 1 - ((Fin.castSucc k : Fin (t + 1)) : ℕ)) 0 *
        lfilter [1, 0] [1, -1] x (Fin.castSucc k : Fin (t + 1)) = 0 := by
      intro k
      have hk : (Fin.castSucc k : Fin (t + 1)).val = k.val := rfl
      have : t + 1 - k.val = (t - k.val - 1) + 2 := by omega
      rw [hk, this]
      simp
    have e1 : ∑ k : Fin (t + 1 + 1), List.getD [(1 : ℝ), 0] (t + 1 - k) 0 * x k = x (t + 1) := by
      rw [Fin.sum_univ_castSucc, Finset.sum_eq_zero fun k _ => h1 k]
      simp
    have e2 : ∑ k : Fin (t + 1), List.getD [(1 : ℝ), -1] (t + 1 - k) 0 * lfilter [1, 0] [1, -1] x k = - lfilter [1, 0] [1, -1] x t := by
      rw [Fin.sum_univ_castSucc, Finset.sum_eq_zero fun k _ => h2 k]
      simp
    rw [lfilter, e1, e2, Finset.sum_range_succ, ih]
    ring

/-- Finite impulse responses. -/
theorem lfilter_fir (b : List ℝ) (x : ℕ → ℝ) (t : ℕ) : lfilter b [1] x t = ∑ k ∈ Finset.range (t + 1), b.getD (t - k) 0 * x k := by
  rw [lfilter]
  have h2 : ∀ k : Fin t, List.getD [(1 : ℝ)] (t - k) 0 * lfilter b [1] x k = 0 := by
    intro k
    have : t - k.val = (t - k.val - 1) + 1 := by omega
    rw [this]
    simp
  rw [Finset.sum_eq_zero fun k _ => h2 k, sub_zero, Finset.sum_range]

/-! ### The flicker filter -/

/-- C101, flicker noise: the square of the filter's transfer function is the one of three integrators. -/
theorem C101_flicker : (PowerSeries.mk coefficient) ^ 2 * (1 - PowerSeries.X) ^ 3 = (1 : PowerSeries ℝ) := by
  set H : PowerSeries ℝ := PowerSeries.mk coefficient with hH
  have hd : PowerSeries.derivative ℝ H * (1 - PowerSeries.X) = PowerSeries.C (3 / 2 : ℝ) * H := by
    ext n
    rw [mul_sub, mul_one, map_sub, PowerSeries.coeff_C_mul, PowerSeries.coeff_derivative]
    cases n with
    | zero =>
      rw [PowerSeries.coeff_zero_mul_X]
      simp [hH, coefficient]
      norm_num
    | succ n =>
      rw [PowerSeries.coeff_succ_mul_X, PowerSeries.coeff_derivative]
      simp only [hH, PowerSeries.coeff_mk]
      rw [coefficient.eq_2 (n + 1)]
      have hk : ((n : ℝ) + 1 + 1) ≠ 0 := by positivity
      push_cast
      field_simp
      ring
  refine PowerSeries.derivative.ext (R := ℝ) ?_ ?_
  · have h3 : PowerSeries.derivative ℝ (1 - PowerSeries.X : PowerSeries ℝ) = -1 := by
      rw [map_sub, PowerSeries.derivative_X]
      simp
    rw [Derivation.leibniz, Derivation.leibniz_pow, Derivation.leibniz_pow, h3]
    have hc : (PowerSeries.C (3 / 2 : ℝ)) * 2 = 3 := by
      have h2 : PowerSeries.C (2 : ℝ) = 2 := map_ofNat PowerSeries.C 2
      have h3 : PowerSeries.C (3 : ℝ) = 3 := map_ofNat PowerSeries.C 3
      rw [← h2, ← h3, ← map_mul]
      norm_num
    simp only [smul_eq_mul, nsmul_eq_mul]
    push_cast
    have : PowerSeries.derivative ℝ (1 : PowerSeries ℝ) = 0 := by simp
    rw [this]
    linear_combination 2 * H * (1 - PowerSeries.X) ^ 2 * hd + H ^ 2 * (1 - PowerSeries.X) ^ 2 * hc
  · simp [hH, coefficient]

theorem coefficient_eq (k : ℕ) : coefficient k = (2 * k + 1) * (Nat.centralBinom k) / 4 ^ k := by
  induction k with
  | zero => simp [coefficient]
  | succ k ih =>
    rw [coefficient, ih]
    have hc := Nat.succ_mul_centralBinom_succ k
    have hc' : ((k : ℝ) + 1) * (Nat.centralBinom (k + 1)) = 2 * (2 * k + 1) * (Nat.centralBinom k) := by exact_mod_cast hc
    have hk : ((k : ℝ) + 1) ≠ 0 := by positivity
    push_cast
    field_simp
    rw [show (4 : ℝ) ^ (k + 1) = 4 ^ k * 4 from pow_succ _ _]
    linear_combination (2 * (k : ℝ) + 3) * 4 ^ k * (-1) * hc'

/-- C101, flicker noise: its coefficients in closed form. -/
theorem C101_coefficients (n k : ℕ) (h : k < n) :
    (coefficients n)[k]? = some (((2 * k + 1) * (Nat.centralBinom k) / 4 ^ k : ℝ)) := by
  unfold coefficients
  rw [List.getElem?_map, List.getElem?_range h, ← coefficient_eq]
  rfl

/-! ### Covariance -/

/-- Weights of the drawn numbers, white, integrated and flicker noise. -/
noncomputable def Oscillator.weight (o : Oscillator) (rate : ℝ) (t j : ℕ) : Fin 3 → ℝ
  | 0 => √(o.var0 rate) * if j = t then 1 else 0
  | 1 => √(o.var2 rate) * if j ≤ t then 1 else 0
  | 2 => √(o.var3 rate) * if j ≤ t then coefficient (t - j) else 0

/-- Numbers drawn before. -/
noncomputable def Oscillator.offset (o : Oscillator) (rate : ℝ) (n : ℕ) : Fin 3 → ℕ
  | 0 => 0
  | 1 => if 0 < o.var0 rate then n else 0
  | 2 => if 0 < o.var2 rate then (if 0 < o.var0 rate then n else 0) + n else if 0 < o.var0 rate then n else 0

theorem half_eq_sqrt (x : ℝ) : x ^ (0.5 : ℝ) = √x := by
  rw [Real.sqrt_eq_rpow]
  norm_num

theorem sum_upto (N t : ℕ) (ht : t < N) (f : ℕ → ℝ) : ∑ j ∈ Finset.range N, (if j ≤ t then f j else 0) = ∑ j ∈ Finset.range (t + 1), f j := by
  rw [← Finset.sum_filter]
  congr 1
  ext j
  simp only [Finset.mem_filter, Finset.mem_range]
  omega

theorem noise_eq (o : Oscillator) (z : ℕ → ℝ) (S N : ℕ) (rate : ℝ) (a t : ℕ) (ht : t < N) :
    o.noise z S N rate a t = ∑ c : Fin 3, ∑ j ∈ Finset.range N, o.weight rate t j c * z (o.offset rate (S * N) c + (a * N + j)) := by
  rw [Fin.sum_univ_three]
  unfold Oscillator.noise
  dsimp only
  congr 1
  · congr 1
    · show _ = ∑ j ∈ Finset.range N, √(o.var0 rate) * (if j = t then 1 else 0) * z (0 + (a * N + j))
      rw [Finset.sum_eq_single_of_mem t (Finset.mem_range.mpr ht) (by intro j _ hj; simp [hj])]
      split
      · simp [normal, half_eq_sqrt]
      · next h => simp [Real.sqrt_eq_zero_of_nonpos (not_lt.mp h)]
    · show _ = ∑ j ∈ Finset.range N, √(o.var2 rate) * (if j ≤ t then 1 else 0) * z ((if 0 < o.var0 rate then S * N else 0) + (a * N + j))
      split
      · rw [lfilter_sum]
        have := sum_upto N t ht fun j => √(o.var2 rate) * z ((if 0 < o.var0 rate then S * N else 0) + (a * N + j))
        simp only [normal, half_eq_sqrt]
        rw [← this]
        refine Finset.sum_congr rfl fun j _ => ?_
        split <;> simp
      · next h => simp [Real.sqrt_eq_zero_of_nonpos (not_lt.mp h)]
  · show _ = ∑ j ∈ Finset.range N, √(o.var3 rate) * (if j ≤ t then coefficient (t - j) else 0) * z ((if 0 < o.var2 rate then
        (if 0 < o.var0 rate then S * N else 0) + S * N else if 0 < o.var0 rate then S * N else 0) + (a * N + j))
    split
    · rw [lfilter_fir]
      have := sum_upto N t ht fun j => √(o.var3 rate) * coefficient (t - j) * z ((if 0 < o.var2 rate then
        (if 0 < o.var0 rate then S * N else 0) + S * N else if 0 < o.var0 rate then S * N else 0) + (a * N + j))
      simp only [normal, half_eq_sqrt]
      rw [Finset.sum_congr rfl (g := fun j => √(o.var3 rate) * coefficient (t - j) * z ((if 0 < o.var2 rate then
        (if 0 < o.var0 rate then S * N else 0) + S * N else if 0 < o.var0 rate then S * N else 0) + (a * N + j))), ← this]
      · refine Finset.sum_congr rfl fun j _ => ?_
        split <;> simp
      · intro j hj
        rw [coefficients_getD N (t - j) (by omega)]
        ring
    · next h => simp [Real.sqrt_eq_zero_of_nonpos (not_lt.mp h)]

variable {Ω : Type} [MeasurableSpace Ω] {μ : Measure Ω} {z : ℕ → ℕ → Ω → ℝ}

/-- Covariance of two combinations of drawn numbers. -/
theorem cov {ι κ : Type} (hz : White μ z) (A : Finset ι) (B : Finset κ) (s s' : ℕ) (f : ι → ℝ) (g : κ → ℝ) (p : ι → ℕ) (q : κ → ℕ) :
    ∫ ω, (∑ i ∈ A, f i * z s (p i) ω) * (∑ j ∈ B, g j * z s' (q j) ω) ∂μ =
      ∑ i ∈ A, ∑ j ∈ B, f i * g j * if (s, p i) = (s', q j) then 1 else 0 := by
  have hI : ∀ i j, Integrable (fun ω => z s (p i) ω * z s' (q j) ω) μ := fun i j => (hz.memLp s _).integrable_mul (hz.memLp s' _)
  have e : ∀ ω, (∑ i ∈ A, f i * z s (p i) ω) * (∑ j ∈ B, g j * z s' (q j) ω) =
      ∑ i ∈ A, ∑ j ∈ B, f i * g j * (z s (p i) ω * z s' (q j) ω) := by
    intro ω
    rw [Finset.sum_mul_sum]
    exact Finset.sum_congr rfl fun i _ => Finset.sum_congr rfl fun j _ => by ring
  simp_rw [e]
  rw [integral_finsetSum _ fun i _ => integrable_finsetSum _ fun j _ => (hI i j).const_mul _]
  refine Finset.sum_congr rfl fun i _ => ?_
  rw [integral_finsetSum _ fun j _ => (hI i j).const_mul _]
  refine Finset.sum_congr rfl fun j _ => ?_
  rw [integral_const_mul, hz.corr]

theorem weight_zero (o : Oscillator) (rate : ℝ) (t j : ℕ) (h0 : ¬ 0 < o.var0 rate) : o.weight rate t j 0 = 0 := by
  show √(o.var0 rate) * _ = 0
  rw [Real.sqrt_eq_zero_of_nonpos (not_lt.mp h0), zero_mul]

theorem weight_one (o : Oscillator) (rate : ℝ) (t j : ℕ) (h0 : ¬ 0 < o.var2 rate) : o.weight rate t j 1 = 0 := by
  show √(o.var2 rate) * _ = 0
  rw [Real.sqrt_eq_zero_of_nonpos (not_lt.mp h0), zero_mul]

/-- Segments of different kinds of noise do not overlap. -/
theorem cross (o : Oscillator) (rate : ℝ) (t t' j j' n m m' : ℕ) (hm : m < n) (hm' : m' < n) (c c' : Fin 3) (h : c ≠ c') :
    o.weight rate t j c * o.weight rate t' j' c' * (if o.offset rate n c + m = o.offset rate n c' + m' then 1 else 0) = 0 := by
  have hc : ∀ c : Fin 3, c = 0 ∨ c = 1 ∨ c = 2 := by decide
  by_cases h0 : 0 < o.var0 rate <;> by_cases h2 : 0 < o.var2 rate <;> rcases hc c with rfl | rfl | rfl <;>
    rcases hc c' with rfl | rfl | rfl <;> first
      | exact absurd rfl h
      | (rw [weight_zero o rate t j h0]; ring)
      | (rw [weight_zero o rate t' j' h0]; ring)
      | (rw [weight_one o rate t j h2]; ring)
      | (rw [weight_one o rate t' j' h2]; ring)
      | (rw [if_neg (by simp only [Oscillator.offset, h0, h2, if_true, if_false]; omega), mul_zero])

theorem noise_cov (hz : White μ z) (o : Oscillator) (seed S N : ℕ) (rate : ℝ) (a a' t t' : ℕ) (ha : a < S) (ha' : a' < S) (ht : t < N) (ht' : t' < N) :
    ∫ ω, o.noise (fun k => z seed k ω) S N rate a t * o.noise (fun k => z seed k ω) S N rate a' t' ∂μ =
      if a = a' then ∑ c : Fin 3, ∑ j ∈ Finset.range N, o.weight rate t j c * o.weight rate t' j c else 0 := by
  have e : ∀ (a t : ℕ), t < N → ∀ ω, o.noise (fun k => z seed k ω) S N rate a t = ∑ i ∈ (Finset.univ : Finset (Fin 3)) ×ˢ Finset.range N,
      o.weight rate t i.2 i.1 * z seed (o.offset rate (S * N) i.1 + (a * N + i.2)) ω := by
    intro a t ht ω
    rw [noise_eq o _ S N rate a t ht, Finset.sum_product]
  simp_rw [e a t ht, e a' t' ht']
  rw [cov hz _ _ seed seed (fun i : Fin 3 × ℕ => o.weight rate t i.2 i.1) (fun i : Fin 3 × ℕ => o.weight rate t' i.2 i.1)
    (fun i => o.offset rate (S * N) i.1 + (a * N + i.2)) (fun i => o.offset rate (S * N) i.1 + (a' * N + i.2))]
  simp only [Prod.mk.injEq, true_and]
  have inner : ∀ c : Fin 3, ∀ j ∈ Finset.range N,
      ∑ i ∈ (Finset.univ : Finset (Fin 3)) ×ˢ Finset.range N, o.weight rate t j c * o.weight rate t' i.2 i.1 *
        (if o.offset rate (S * N) c + (a * N + j) = o.offset rate (S * N) i.1 + (a' * N + i.2) then 1 else 0) =
      if a = a' then o.weight rate t j c * o.weight rate t' j c else 0 := by
    intro c j hj
    have hj := Finset.mem_range.mp hj
    rw [Finset.sum_product, Finset.sum_eq_single_of_mem c (Finset.mem_univ c)]
    · rw [Finset.sum_eq_single_of_mem j (Finset.mem_range.mpr hj)]
      · by_cases h : a = a'
        · subst h
          simp
        · rw [if_neg h, if_neg, mul_zero]
          intro h'
          dsimp only at h'
          exact h (place_inj (N := N) hj hj (by omega)).1
      · intro j' hj' hne
        rw [if_neg, mul_zero]
        intro h'
        dsimp only at h'
        exact hne (place_inj (N := N) (a := a) (a' := a') hj (Finset.mem_range.mp hj') (by omega)).2.symm
    · intro c' _ hne
      exact Finset.sum_eq_zero fun j' hj' => cross o rate t t' j j' (S * N) (a * N + j) (a' * N + j') (place_lt ha hj)
        (place_lt ha' (Finset.mem_range.mp hj')) c c' hne.symm
  rw [Finset.sum_product]
  rw [Finset.sum_congr rfl fun c _ => Finset.sum_congr rfl fun j hj => inner c j hj]
  split <;> simp

/-- Samples of the impulse response of one and a half integrators. -/
noncomputable def flicker (k : ℕ) : ℝ := (2 * k + 1) * (Nat.centralBinom k) / 4 ^ k

/-- The covariance function documented: white, random walk, and flicker noise. -/
noncomputable def covariance (K0 K2 K3 rate : ℝ) (t t' : ℕ) : ℝ :=
  (if t = t' then K0 * rate else 0) + 4 * π ^ 2 * K2 / rate * (min t t' + 1) + 8 * π ^ 3 * K3 / rate ^ 2 *
    ∑ j ∈ Finset.range (min t t' + 1), flicker (t - j) * flicker (t' - j)

theorem weights (o : Oscillator) (h0 : 0 ≤ o.K0) (h2 : 0 ≤ o.K2) (h3 : 0 ≤ o.K3) (rate : ℝ) (hr : 0 < rate) (N t t' : ℕ) (ht : t < N) (ht' : t' < N) :
    ∑ c : Fin 3, ∑ j ∈ Finset.range N, o.weight rate t j c * o.weight rate t' j c = covariance o.K0 o.K2 o.K3 rate t t' := by
  have hsq : ∀ x : ℝ, 0 ≤ x → √x * √x = x := fun x hx => Real.mul_self_sqrt hx
  have v0 : 0 ≤ o.var0 rate := by unfold Oscillator.var0; positivity
  have v2 : 0 ≤ o.var2 rate := by unfold Oscillator.var2; positivity
  have v3 : 0 ≤ o.var3 rate := by unfold Oscillator.var3; positivity
  rw [Fin.sum_univ_three]
  unfold covariance
  congr 1
  · congr 1
    · show ∑ j ∈ Finset.range N, √(o.var0 rate) * (if j = t then 1 else 0) * (√(o.var0 rate) * (if j = t' then 1 else 0)) = _
      rw [Finset.sum_eq_single_of_mem t (Finset.mem_range.mpr ht) (by intro j _ hj; simp [hj])]
      rw [if_pos rfl, mul_one]
      split
      · rw [mul_one, hsq _ v0]
        unfold Oscillator.var0
        field_simp
      · simp
    · show ∑ j ∈ Finset.range N, √(o.var2 rate) * (if j ≤ t then 1 else 0) * (√(o.var2 rate) * (if j ≤ t' then 1 else 0)) = _
      have := sum_upto N (min t t') (by omega) fun _ => o.var2 rate
      rw [Finset.sum_const, Finset.card_range, nsmul_eq_mul] at this
      rw [Finset.sum_congr rfl (g := fun j => if j ≤ min t t' then o.var2 rate else 0), this]
      · unfold Oscillator.var2
        push_cast
        ring
      · intro j _
        by_cases h : j ≤ t <;> by_cases h' : j ≤ t' <;> simp [h, h', hsq _ v2]
  · show ∑ j ∈ Finset.range N, √(o.var3 rate) * (if j ≤ t then coefficient (t - j) else 0) *
      (√(o.var3 rate) * (if j ≤ t' then coefficient (t' - j) else 0)) = _
    have := sum_upto N (min t t') (by omega) fun j => o.var3 rate * (coefficient (t - j) * coefficient (t' - j))
    rw [Finset.sum_congr rfl (g := fun j => if j ≤ min t t' then o.var3 rate * (coefficient (t - j) * coefficient (t' - j)) else 0), this,
      ← Finset.mul_sum]
    · have e : o.var3 rate = 8 * π ^ 3 * o.K3 / rate ^ 2 := by
        unfold Oscillator.var3
        field_simp
      rw [e]
      congr 1
      refine Finset.sum_congr rfl fun j _ => ?_
      have hc : ∀ k, coefficient k = flicker k := coefficient_eq
      rw [hc, hc]
    · intro j _
      by_cases h : j ≤ t <;> by_cases h' : j ≤ t' <;> simp [h, h']
      linear_combination (coefficient (t - j) * coefficient (t' - j)) * hsq _ v3

theorem noise_other (hz : White μ z) (o o' : Oscillator) (seed seed' : ℕ) (hs : seed ≠ seed') (S N S' N' : ℕ) (rate rate' : ℝ) (a a' t t' : ℕ)
    (ht : t < N) (ht' : t' < N') :
    ∫ ω, o.noise (fun k => z seed k ω) S N rate a t * o'.noise (fun k => z seed' k ω) S' N' rate' a' t' ∂μ = 0 := by
  have e : ∀ (o : Oscillator) (seed S N : ℕ) (rate : ℝ) (a t : ℕ), t < N → ∀ ω, o.noise (fun k => z seed k ω) S N rate a t =
      ∑ i ∈ (Finset.univ : Finset (Fin 3)) ×ˢ Finset.range N,
      o.weight rate t i.2 i.1 * z seed (o.offset rate (S * N) i.1 + (a * N + i.2)) ω := by
    intro o seed S N rate a t ht ω
    rw [noise_eq o _ S N rate a t ht, Finset.sum_product]
  simp_rw [e o seed S N rate a t ht, e o' seed' S' N' rate' a' t' ht']
  rw [cov hz _ _ seed seed' (fun i : Fin 3 × ℕ => o.weight rate t i.2 i.1) (fun i : Fin 3 × ℕ => o'.weight rate' t' i.2 i.1)
    (fun i => o.offset rate (S * N) i.1 + (a * N + i.2)) (fun i => o'.offset rate' (S' * N') i.1 + (a' * N' + i.2))]
  simp [hs]

theorem noise_memLp (hz : White μ z) (o : Oscillator) (seed S N : ℕ) (rate : ℝ) (a t : ℕ) (ht : t < N) :
    MemLp (fun ω => o.noise (fun k => z seed k ω) S N rate a t) 2 μ := by
  simp_rw [noise_eq o _ S N rate a t ht]
  exact memLp_finsetSum _ fun c _ => memLp_finsetSum _ fun j _ => (hz.memLp seed _).const_mul _

theorem noise_mean [IsProbabilityMeasure μ] (hz : White μ z) (o : Oscillator) (seed S N : ℕ) (rate : ℝ) (a t : ℕ) (ht : t < N) :
    ∫ ω, o.noise (fun k => z seed k ω) S N rate a t ∂μ = 0 := by
  have hI : ∀ k, Integrable (z seed k) μ := fun k => (hz.memLp seed k).integrable (by norm_num)
  simp_rw [noise_eq o _ S N rate a t ht]
  rw [integral_finsetSum _ fun c _ => integrable_finsetSum _ fun j _ => (hI _).const_mul _]
  refine Finset.sum_eq_zero fun c _ => ?_
  rw [integral_finsetSum _ fun j _ => (hI _).const_mul _]
  refine Finset.sum_eq_zero fun j _ => ?_
  rw [integral_const_mul, hz.mean, mul_zero]

theorem addNoise_ok (o : Oscillator) (z : ℕ → ℝ) (s : RfSignal ℂ) (hs : Aligned s) (h : 0 < s.rows.length) (h' : 0 < s.samples) :
    o.addNoise z s = .ok { s with
      rows := s.rows.mapIdx fun a row => row.mapIdx fun t x =>
        x * Complex.exp (Complex.I * o.noise z s.rows.length s.samples s.rate a t) } := by
  unfold Oscillator.addNoise
  rw [if_neg (Nat.mul_pos h h').ne', finalize_ok hs _ _ (by simp)]
  simp only [List.length_mapIdx]
  rw [List.take_of_length_le hs.carriers.le, List.take_of_length_le hs.noises.le]

/-- C101, magnitudes: phase noise turns samples and changes neither their magnitudes nor the signal's attributes. -/
theorem C101_magnitude (o : Oscillator) (z : ℕ → ℝ) (s : RfSignal ℂ) (hs : Aligned s) :
    ∃ r, o.addNoise z s = .ok r ∧ r.rows.map (·.map (‖·‖)) = s.rows.map (·.map (‖·‖)) ∧
      { r with rows := s.rows } = s := by
  by_cases h : s.rows.length * s.samples = 0
  · exact ⟨s, by unfold Oscillator.addNoise; rw [if_pos h], rfl, rfl⟩
  · have h1 : 0 < s.rows.length := Nat.pos_of_ne_zero fun h' => h (by simp [h'])
    have h2 : 0 < s.samples := Nat.pos_of_ne_zero fun h' => h (by simp [h'])
    refine ⟨_, addNoise_ok o z s hs h1 h2, ?_, rfl⟩
    dsimp only
    apply List.ext_getElem
    · simp
    · intro i hi hi'
      simp only [List.getElem_map, List.getElem_mapIdx]
      apply List.ext_getElem
      · simp
      · intro j hj hj'
        simp only [List.getElem_map, List.getElem_mapIdx, norm_mul]
        rw [mul_comm Complex.I, Complex.norm_exp_ofReal_mul_I, mul_one]

/-- C101, phases: samples are turned by phases which are centred, independent between streams, and have the covariance function of white noise,
a random walk and flicker noise of the levels configured. -/
theorem C101_phases [IsProbabilityMeasure μ] (hz : White μ z) (K0 K2 K3 : ℝ) (seed : Option ℕ) (o : Oscillator) (ho : new K0 K2 K3 seed = .ok o)
    (drawn : ℕ) (s : RfSignal ℂ) (hs : Aligned s) (hr : 0 < s.rate) :
    ∃ phase : Ω → ℕ → ℕ → ℝ,
      (∀ ω, ∃ r, o.addNoise (fun k => z drawn k ω) s = .ok r ∧
        r.rows = s.rows.mapIdx fun a row => row.mapIdx fun t x => x * Complex.exp (Complex.I * phase ω a t)) ∧
      (∀ a < s.rows.length, ∀ t < s.samples, ∫ ω, phase ω a t ∂μ = 0) ∧
      ∀ a < s.rows.length, ∀ t < s.samples, ∀ a' < s.rows.length, ∀ t' < s.samples,
        ∫ ω, phase ω a t * phase ω a' t' ∂μ = if a = a' then covariance K0 K2 K3 s.rate t t' else 0 := by
  obtain ⟨h0, h2, h3, rfl⟩ : 0 ≤ K0 ∧ 0 ≤ K2 ∧ 0 ≤ K3 ∧ o = ⟨K0, K2, K3, seed⟩ := by
    unfold new at ho
    repeat' split at ho
    all_goals first | cases ho; exact ⟨by linarith, by linarith, by linarith, rfl⟩ | cases ho
  refine ⟨fun ω => (⟨K0, K2, K3, seed⟩ : Oscillator).noise (fun k => z drawn k ω) s.rows.length s.samples s.rate, fun ω => ?_,
    fun a _ t ht => noise_mean hz _ drawn _ _ _ a t ht, fun a ha t ht a' ha' t' ht' => ?_⟩
  · by_cases h : s.rows.length * s.samples = 0
    · refine ⟨s, by unfold Oscillator.addNoise; rw [if_pos h], ?_⟩
      rcases Nat.mul_eq_zero.mp h with h | h
      · rw [List.length_eq_zero_iff.mp h]
        rfl
      · apply List.ext_getElem
        · simp
        · intro i hi hi'
          have : s.rows[i] = [] := List.length_eq_zero_iff.mp ((hs.rows _ (List.getElem_mem hi)).trans h)
          simp [this]
    · have h1 : 0 < s.rows.length := Nat.pos_of_ne_zero fun h' => h (by simp [h'])
      have h2 : 0 < s.samples := Nat.pos_of_ne_zero fun h' => h (by simp [h'])
      exact ⟨_, addNoise_ok _ _ s hs h1 h2, rfl⟩
  · rw [noise_cov hz _ drawn _ _ _ a a' t t' ha ha' ht ht',
      weights ⟨K0, K2, K3, seed⟩ h0 h2 h3 s.rate (by exact_mod_cast hr) s.samples t t' ht ht']

/-! ### Sources and mixers -/

theorem oscillate_ok (o : Oscillator) (z : ℕ → ℝ) (A : ℝ) (rate f : ℚ) (n : ℕ) (hn : 0 < n) :
    ∃ r, oscillate o z A rate f n = .ok r ∧ r.carriers = [f] ∧
      r.rows = [(List.range n).map fun t => (A : ℂ) * Complex.exp (Complex.I * o.noise z 1 n rate 0 t)] := by
  unfold oscillate
  obtain ⟨s, h1, h2, h3, h4, h5, h6⟩ : ∃ s : RfSignal ℂ, source (A : ℂ) rate f n = .ok s ∧ s.rows = [List.replicate n (A : ℂ)] ∧
      s.samples = n ∧ s.rate = rate ∧ s.carriers = [f] ∧ s.noises.length = 1 := ⟨_, rfl, rfl, rfl, rfl, rfl, rfl⟩
  rw [h1]
  dsimp only
  have hs : Aligned s := ⟨by rw [h5, h2]; rfl, by rw [h6, h2]; rfl, by rw [h2, h3]; simp⟩
  refine ⟨_, addNoise_ok o z s hs (by rw [h2]; simp) (by rw [h3]; exact hn), h5, ?_⟩
  dsimp only
  rw [h2, h3, h4]
  simp only [List.mapIdx_cons, List.mapIdx_nil, List.length_singleton, List.cons.injEq, and_true]
  apply List.ext_getElem
  · simp
  · intro i hi hi'
    simp

/-- C101, mixers: a signal mixed up and down again by two sources is turned by the difference of their phases, whose variance is the sum of
both, and scaled by their amplitudes; its carrier frequency is recovered. -/
theorem C101_mixers [IsProbabilityMeasure μ] (hz : White μ z) (K K' : ℝ × ℝ × ℝ) (sd sd' : Option ℕ) (o o' : Oscillator)
    (ho : new K.1 K.2.1 K.2.2 sd = .ok o) (ho' : new K'.1 K'.2.1 K'.2.2 sd' = .ok o') (seed seed' : ℕ) (hs : seed ≠ seed') (A A' : ℝ)
    (x : List ℂ) (hx : 0 < x.length) (rate c n d f g a b : ℚ) (hr : 0 < rate) (hf : 0 ≤ f) (hg : 0 ≤ g) :
    ∃ phase : Ω → ℕ → ℝ, (∀ ω, ∃ l l' r q y, oscillate o (fun k => z seed k ω) A rate g x.length = .ok l ∧
      oscillate o' (fun k => z seed' k ω) A' rate g x.length = .ok l' ∧
      mixer .up (two x (l.rows.headD []) rate c n d f (l.carriers.headD 0) a b) = .ok r ∧ r.rows = [y] ∧
      mixer .down (two y (l'.rows.headD []) rate c n d (r.carriers.headD 0) (l'.carriers.headD 0) a b) = .ok q ∧
      q.rows = [x.mapIdx fun t v => (A * A') * v * Complex.exp (Complex.I * phase ω t)] ∧ q.carriers = [f] ∧ q.carrier = f) ∧
      ∀ t < x.length, ∫ ω, phase ω t ^ 2 ∂μ =
        covariance K.1 K.2.1 K.2.2 rate t t + covariance K'.1 K'.2.1 K'.2.2 rate t t := by
  have hk : ∀ (K : ℝ × ℝ × ℝ) (sd : Option ℕ) (o : Oscillator), new K.1 K.2.1 K.2.2 sd = .ok o →
      0 ≤ o.K0 ∧ 0 ≤ o.K2 ∧ 0 ≤ o.K3 ∧ K.1 = o.K0 ∧ K.2.1 = o.K2 ∧ K.2.2 = o.K3 := by
    intro K sd o ho
    unfold new at ho
    repeat' split at ho
    all_goals first | cases ho; exact ⟨not_lt.mp (by assumption), not_lt.mp (by assumption), not_lt.mp (by assumption), rfl, rfl, rfl⟩ | cases ho
  obtain ⟨h0, h2, h3, e0, e2, e3⟩ := hk K sd o ho
  obtain ⟨h0', h2', h3', e0', e2', e3'⟩ := hk K' sd' o' ho'
  refine ⟨fun ω t => o.noise (fun k => z seed k ω) 1 x.length rate 0 t - o'.noise (fun k => z seed' k ω) 1 x.length rate 0 t, fun ω => ?_,
    fun t ht => ?_⟩
  · obtain ⟨l, l1, l2, l3⟩ := oscillate_ok o (fun k => z seed k ω) A rate g x.length hx
    obtain ⟨l', l1', l2', l3'⟩ := oscillate_ok o' (fun k => z seed' k ω) A' rate g x.length hx
    obtain ⟨r, r1, r2, r3, -⟩ := (C66_mixer_partial x (l.rows.headD []) (by rw [l3]; simp) rate c n d f g a b).1 (by linarith)
    obtain ⟨q, q1, q2, q3, q4, -⟩ := (C66_mixer_partial (List.zipWith (· * ·) x (l.rows.headD [])) (l'.rows.headD [])
      (by rw [l3, l3']; simp) rate c n d (f + g) g a b).2 (by linarith)
    refine ⟨l, l', r, q, _, l1, l1', by rw [l2]; exact r1, r2, by rw [r3, l2']; exact q1, ?_, by rw [q3]; simp, by rw [q4]; ring⟩
    rw [q2, l3, l3']
    simp only [List.headD_cons, List.cons.injEq, and_true]
    apply List.ext_getElem
    · simp
    · intro i hi hi'
      simp only [List.getElem_zipWith, List.getElem_map, List.getElem_range, List.getElem_mapIdx]
      have : star ((A' : ℂ) * Complex.exp (Complex.I * o'.noise (fun k => z seed' k ω) 1 x.length rate 0 i)) =
          A' * Complex.exp (- (Complex.I * o'.noise (fun k => z seed' k ω) 1 x.length rate 0 i)) := by
        show (starRingEnd ℂ) _ = _
        rw [map_mul, Complex.conj_ofReal, ← Complex.exp_conj, map_mul, Complex.conj_I, Complex.conj_ofReal, neg_mul]
      rw [this]
      push_cast
      rw [mul_sub, sub_eq_add_neg, Complex.exp_add]
      ring
  · have hr' : (0 : ℝ) < rate := by exact_mod_cast hr
    have m1 := noise_memLp hz o seed 1 x.length rate 0 t ht
    have m2 := noise_memLp hz o' seed' 1 x.length rate 0 t ht
    have i1 := m1.integrable_mul m1
    have i2 := m2.integrable_mul m2
    have i3 := (m1.integrable_mul m2).const_mul 2
    have c1 := noise_cov hz o seed 1 x.length rate 0 0 t t one_pos one_pos ht ht
    have c2 := noise_cov hz o' seed' 1 x.length rate 0 0 t t one_pos one_pos ht ht
    have c3 := noise_other hz o o' seed seed' hs 1 x.length 1 x.length rate rate 0 0 t t ht ht
    rw [if_pos rfl, weights o h0 h2 h3 rate hr' _ t t ht ht] at c1
    rw [if_pos rfl, weights o' h0' h2' h3' rate hr' _ t t ht ht] at c2
    have e : ∀ ω, (o.noise (fun k => z seed k ω) 1 x.length rate 0 t - o'.noise (fun k => z seed' k ω) 1 x.length rate 0 t) ^ 2 =
        o.noise (fun k => z seed k ω) 1 x.length rate 0 t * o.noise (fun k => z seed k ω) 1 x.length rate 0 t +
        o'.noise (fun k => z seed' k ω) 1 x.length rate 0 t * o'.noise (fun k => z seed' k ω) 1 x.length rate 0 t -
        2 * (o.noise (fun k => z seed k ω) 1 x.length rate 0 t * o'.noise (fun k => z seed' k ω) 1 x.length rate 0 t) := by
      intro ω
      ring
    simp_rw [e]
    have j1 := integral_sub (i1.add i2) i3
    have j2 := integral_add i1 i2
    simp only [Pi.add_apply, Pi.mul_apply] at j1 j2
    rw [j1, j2, integral_const_mul, c1, c2, c3, e0, e2, e3, e0', e2', e3']
    ring

/-- C101, mixers: with one source for both directions the phase noise cancels, for every draw. -/
theorem C101_shared (o : Oscillator) (z : ℕ → ℝ) (A : ℝ) (x : List ℂ) (hx : 0 < x.length) (rate c n d f g a b : ℚ) (hf : 0 ≤ f) (hg : 0 ≤ g) :
    ∃ l r q y, oscillate o z A rate g x.length = .ok l ∧
      mixer .up (two x (l.rows.headD []) rate c n d f (l.carriers.headD 0) a b) = .ok r ∧ r.rows = [y] ∧
      mixer .down (two y (l.rows.headD []) rate c n d (r.carriers.headD 0) (l.carriers.headD 0) a b) = .ok q ∧
      q.rows = [x.map fun v => (A : ℂ) ^ 2 * v] ∧ q.carriers = [f] ∧ q.carrier = f := by
  obtain ⟨l, l1, l2, l3⟩ := oscillate_ok o z A rate g x.length hx
  obtain ⟨r, r1, r2, r3, -⟩ := (C66_mixer_partial x (l.rows.headD []) (by rw [l3]; simp) rate c n d f g a b).1 (by linarith)
  obtain ⟨q, q1, q2, q3, q4, -⟩ := (C66_mixer_partial (List.zipWith (· * ·) x (l.rows.headD [])) (l.rows.headD [])
    (by rw [l3]; simp) rate c n d (f + g) g a b).2 (by linarith)
  refine ⟨l, r, q, _, l1, by rw [l2]; exact r1, r2, by rw [r3, l2]; exact q1, ?_, by rw [q3]; simp, by rw [q4]; ring⟩
  rw [q2, l3]
  simp only [List.headD_cons, List.cons.injEq, and_true]
  apply List.ext_getElem
  · simp
  · intro i hi hi'
    simp only [List.getElem_zipWith, List.getElem_map, List.getElem_range]
    have : star ((A : ℂ) * Complex.exp (Complex.I * o.noise z 1 x.length rate 0 i)) =
        A * Complex.exp (- (Complex.I * o.noise z 1 x.length rate 0 i)) := by
      show (starRingEnd ℂ) _ = _
      rw [map_mul, Complex.conj_ofReal, ← Complex.exp_conj, map_mul, Complex.conj_I, Complex.conj_ofReal, neg_mul]
    rw [this, Complex.exp_neg]
    have hne := Complex.exp_ne_zero (Complex.I * o.noise z 1 x.length rate 0 i)
    field_simp

/-! ### Spectrum -/

/-- C101, spectrum: at high sampling rates, the power spectral density at a distance `f` from the carrier is
`K0 + K2 / f² + K3 / f³`.  The density is the one of white noise, passed through an integrator, whose transfer function at `f` is
`1 / (1 - exp (- 2 π i f / rate))`, and through the flicker filter, the square of whose transfer function is the third power
(`C101_flicker`). -/
theorem C101_spectrum (o : Oscillator) (f : ℝ) (hf : 0 < f) :
    Filter.Tendsto (fun rate : ℝ => (o.var0 rate + o.var2 rate / ‖1 - Complex.exp (-(2 * π * f / rate : ℝ) * Complex.I)‖ ^ 2 +
      o.var3 rate / ‖1 - Complex.exp (-(2 * π * f / rate : ℝ) * Complex.I)‖ ^ 3) / rate) Filter.atTop
      (nhds (o.K0 + o.K2 / f ^ 2 + o.K3 / f ^ 3)) := by
  have key : Filter.Tendsto (fun rate : ℝ => rate * ‖1 - Complex.exp (-(2 * π * f / rate : ℝ) * Complex.I)‖) Filter.atTop (nhds (2 * π * f)) := by
    have hd : HasDerivAt (fun h : ℝ => Complex.exp ((h : ℂ) * (-(2 * π * f : ℝ) * Complex.I))) (-(2 * π * f : ℝ) * Complex.I) 0 := by
      have h1 : HasDerivAt (fun h : ℝ => (h : ℂ) * (-(2 * π * f : ℝ) * Complex.I)) (-(2 * π * f : ℝ) * Complex.I) 0 := by
        simpa using (Complex.ofRealCLM.hasDerivAt (x := (0 : ℝ))).mul_const (-(2 * π * f : ℝ) * Complex.I)
      simpa using h1.cexp
    have ht := (hasDerivAt_iff_tendsto_slope_zero.mp hd).norm.comp
      (tendsto_inv_atTop_nhdsGT_zero.mono_right (nhdsWithin_mono _ fun x (hx : 0 < x) => hx.ne') : Filter.Tendsto (fun r : ℝ => r⁻¹) Filter.atTop (nhdsWithin 0 {0}ᶜ))
    have hn : ‖-((2 * π * f : ℝ) : ℂ) * Complex.I‖ = 2 * π * f := by
      rw [norm_mul, Complex.norm_I, mul_one, norm_neg, Complex.norm_real, Real.norm_of_nonneg (by positivity)]
    rw [hn] at ht
    refine ht.congr' ?_
    filter_upwards [Filter.eventually_gt_atTop 0] with r hr
    simp only [Function.comp, zero_add, inv_inv, Complex.ofReal_zero, zero_mul, Complex.exp_zero]
    rw [norm_smul, Real.norm_of_nonneg hr.le, ← norm_neg, neg_sub]
    congr 4
    push_cast
    field_simp
  have h2 : Filter.Tendsto (fun rate : ℝ => o.K0 + 4 * π ^ 2 * o.K2 / (rate * ‖1 - Complex.exp (-(2 * π * f / rate : ℝ) * Complex.I)‖) ^ 2 +
      8 * π ^ 3 * o.K3 / (rate * ‖1 - Complex.exp (-(2 * π * f / rate : ℝ) * Complex.I)‖) ^ 3) Filter.atTop
      (nhds (o.K0 + 4 * π ^ 2 * o.K2 / (2 * π * f) ^ 2 + 8 * π ^ 3 * o.K3 / (2 * π * f) ^ 3)) :=
    ((tendsto_const_nhds (x := o.K0)).add ((tendsto_const_nhds (x := 4 * π ^ 2 * o.K2)).div (key.pow 2) (by positivity))).add
      ((tendsto_const_nhds (x := 8 * π ^ 3 * o.K3)).div (key.pow 3) (by positivity))
  have e : o.K0 + o.K2 / f ^ 2 + o.K3 / f ^ 3 = o.K0 + 4 * π ^ 2 * o.K2 / (2 * π * f) ^ 2 + 8 * π ^ 3 * o.K3 / (2 * π * f) ^ 3 := by
    have := Real.pi_pos
    field_simp
    ring
  rw [e]
  refine h2.congr' ?_
  filter_upwards [Filter.eventually_gt_atTop 0] with r hr
  unfold Oscillator.var0 Oscillator.var2 Oscillator.var3
  rw [mul_pow, mul_pow]
  field_simp

/-! ### Fitting -/

/-- Sum of squared residuals of a linear system. -/
def residual (rows : List (ℝ × ℝ × ℝ)) (b : List ℝ) (x : ℝ × ℝ × ℝ) : ℝ :=
  ((rows.zip b).map fun p => (p.1.1 * x.1 + p.1.2.1 * x.2.1 + p.1.2.2 * x.2.2 - p.2) ^ 2).sum

/-- Contract of `lsq_linear(A, b, bounds=(0, inf)).x`: a minimiser among non-negative vectors. -/
def Solves (rows : List (ℝ × ℝ × ℝ)) (b : List ℝ) (x : ℝ × ℝ × ℝ) : Prop :=
  (0 ≤ x.1 ∧ 0 ≤ x.2.1 ∧ 0 ≤ x.2.2) ∧ ∀ y : ℝ × ℝ × ℝ, 0 ≤ y.1 → 0 ≤ y.2.1 → 0 ≤ y.2.2 → residual rows b x ≤ residual rows b y

/-- The system solved, `phase_noise.py` 256-261. -/
noncomputable def system (offsets : List ℝ) : List (ℝ × ℝ × ℝ) := offsets.map fun f => (f ^ (-3 : ℤ), f ^ (-2 : ℤ), 1)

/-- `OscillatorPhaseNoise.FromPSD`, `phase_noise.py` 236-267. -/
noncomputable def fromPsd (solve : List (ℝ × ℝ × ℝ) → List ℝ → ℝ × ℝ × ℝ) (offsets levels : List ℝ) (seed : Option ℕ) : Except PyErr Oscillator :=
  match solve (system offsets) levels with
  | (K3, K2, K0) => new K0 K2 K3 seed

/-- A polynomial `p u³ + q u² + r` with three different positive roots is zero. -/
theorem three_roots (p q r u v w : ℝ) (hu : 0 < u) (hv : 0 < v) (hw : 0 < w) (huv : u ≠ v) (huw : u ≠ w) (hvw : v ≠ w)
    (h1 : p * u ^ 3 + q * u ^ 2 + r = 0) (h2 : p * v ^ 3 + q * v ^ 2 + r = 0) (h3 : p * w ^ 3 + q * w ^ 2 + r = 0) :
    p = 0 ∧ q = 0 ∧ r = 0 := by
  have a1 : p * (u ^ 2 + u * v + v ^ 2) + q * (u + v) = 0 := by
    apply mul_left_cancel₀ (sub_ne_zero.mpr huv)
    linear_combination h1 - h2
  have a2 : p * (u ^ 2 + u * w + w ^ 2) + q * (u + w) = 0 := by
    apply mul_left_cancel₀ (sub_ne_zero.mpr huw)
    linear_combination h1 - h3
  have a3 : p * (u * v + u * w + v * w) = 0 := by
    apply mul_left_cancel₀ (sub_ne_zero.mpr hvw)
    linear_combination (u + w) * a1 - (u + v) * a2
  have hp : p = 0 := by
    rcases mul_eq_zero.mp a3 with h | h
    · exact h
    · have : 0 < u * v + u * w + v * w := by positivity
      linarith
  have hq : q = 0 := by
    rw [hp, zero_mul, zero_add] at a1
    rcases mul_eq_zero.mp a1 with h | h
    · exact h
    · linarith
  refine ⟨hp, hq, ?_⟩
  rw [hp, hq] at h1
  linarith

theorem residual_zero (rows : List (ℝ × ℝ × ℝ)) (b : List ℝ) (x : ℝ × ℝ × ℝ) (h : residual rows b x ≤ 0) :
    ∀ p ∈ rows.zip b, p.1.1 * x.1 + p.1.2.1 * x.2.1 + p.1.2.2 * x.2.2 = p.2 := by
  unfold residual at h
  generalize rows.zip b = l at h
  induction l with
  | nil => simp
  | cons p l ih =>
    rw [List.map_cons, List.sum_cons] at h
    have h1 : 0 ≤ (l.map fun p => (p.1.1 * x.1 + p.1.2.1 * x.2.1 + p.1.2.2 * x.2.2 - p.2) ^ 2).sum :=
      List.sum_nonneg fun y hy => by
        obtain ⟨_, -, rfl⟩ := List.mem_map.mp hy
        positivity
    have h2 : 0 ≤ (p.1.1 * x.1 + p.1.2.1 * x.2.1 + p.1.2.2 * x.2.2 - p.2) ^ 2 := sq_nonneg _
    intro p' hp'
    rcases List.mem_cons.mp hp' with rfl | hp'
    · have := pow_eq_zero_iff (two_ne_zero) |>.mp (le_antisymm (by linarith) h2)
      linarith
    · exact ih (by linarith) p' hp'

/-- C101, fitting: oscillators fitted to a spectrum known at three or more distances from the carrier have the levels of the spectrum. -/
theorem C101_psd (solve : List (ℝ × ℝ × ℝ) → List ℝ → ℝ × ℝ × ℝ) (K0 K2 K3 : ℝ) (h0 : 0 ≤ K0) (h2 : 0 ≤ K2) (h3 : 0 ≤ K3)
    (offsets : List ℝ) (hpos : ∀ f ∈ offsets, 0 < f) (f g h : ℝ) (hf : f ∈ offsets) (hg : g ∈ offsets) (hh : h ∈ offsets)
    (hfg : f ≠ g) (hfh : f ≠ h) (hgh : g ≠ h) (seed : Option ℕ) (levels : List ℝ)
    (hl : levels = offsets.map fun f => K0 + K2 / f ^ 2 + K3 / f ^ 3) (hsolve : Solves (system offsets) levels (solve (system offsets) levels)) :
    fromPsd solve offsets levels seed = new K0 K2 K3 seed := by
  unfold fromPsd
  set rows := system offsets with hrows
  set b := levels with hb
  have hzip : rows.zip b = offsets.map fun f => ((f ^ (-3 : ℤ), f ^ (-2 : ℤ), (1 : ℝ)), K0 + K2 / f ^ 2 + K3 / f ^ 3) := by
    rw [hrows, hl]
    exact List.zip_map'
  have hz : ∀ f : ℝ, f ^ (-3 : ℤ) = (f⁻¹) ^ 3 ∧ f ^ (-2 : ℤ) = (f⁻¹) ^ 2 := by
    intro f
    constructor
    · rw [zpow_neg, inv_pow]
      norm_cast
    · rw [zpow_neg, inv_pow]
      norm_cast
  have hres : residual rows b (K3, K2, K0) = 0 := by
    unfold residual
    rw [hzip, List.map_map]
    apply List.sum_eq_zero
    intro y hy
    obtain ⟨f, -, rfl⟩ := List.mem_map.mp hy
    dsimp only [Function.comp]
    rw [(hz f).1, (hz f).2, div_eq_mul_inv, div_eq_mul_inv, ← inv_pow, ← inv_pow]
    ring
  have hmin := hsolve.2 (K3, K2, K0) h3 h2 h0
  rw [hres] at hmin
  have hall := residual_zero rows b _ hmin
  have heq : ∀ f ∈ offsets, ((solve rows b).1 - K3) * (f⁻¹) ^ 3 + ((solve rows b).2.1 - K2) * (f⁻¹) ^ 2 + ((solve rows b).2.2 - K0) = 0 := by
    intro f hf
    have := hall ((f ^ (-3 : ℤ), f ^ (-2 : ℤ), (1 : ℝ)), K0 + K2 / f ^ 2 + K3 / f ^ 3) (by rw [hzip]; exact List.mem_map.mpr ⟨f, hf, rfl⟩)
    dsimp only at this
    rw [(hz f).1, (hz f).2, div_eq_mul_inv, div_eq_mul_inv, ← inv_pow, ← inv_pow] at this
    linear_combination this
  obtain ⟨e1, e2, e3⟩ := three_roots _ _ _ f⁻¹ g⁻¹ h⁻¹ (inv_pos.mpr (hpos f hf)) (inv_pos.mpr (hpos g hg)) (inv_pos.mpr (hpos h hh))
    (fun h => hfg (inv_injective h)) (fun h => hfh (inv_injective h)) (fun h => hgh (inv_injective h)) (heq f hf) (heq g hg) (heq h hh)
  have : solve rows b = (K3, K2, K0) := by
    refine Prod.ext (by linarith) (Prod.ext ?_ ?_)
    · dsimp only; linarith
    · dsimp only; linarith
  rw [this]

theorem residual_nonneg (rows : List (ℝ × ℝ × ℝ)) (b : List ℝ) (x : ℝ × ℝ × ℝ) : 0 ≤ residual rows b x := by
  refine List.sum_nonneg fun y hy => ?_
  obtain ⟨_, -, rfl⟩ := List.mem_map.mp hy
  positivity

/-- C101 fails for two distances: the levels fitted are not determined by the spectrum. -/
theorem C101_psd_fails :
    ∃ solve : List (ℝ × ℝ × ℝ) → List ℝ → ℝ × ℝ × ℝ, ∃ levels, levels = [1, 2].map (fun f : ℝ => 0 + 7 / f ^ 2 + 0 / f ^ 3) ∧
      Solves (system [1, 2]) levels (solve (system [1, 2]) levels) ∧ fromPsd solve [1, 2] levels none = .ok ⟨1, 0, 6, none⟩ := by
  refine ⟨fun _ _ => (6, 0, 1), _, rfl, ⟨by norm_num, fun y _ _ _ => ?_⟩, ?_⟩
  · have : residual (system [1, 2]) ([1, 2].map fun f : ℝ => 0 + 7 / f ^ 2 + 0 / f ^ 3) (6, 0, 1) = 0 := by
      norm_num [residual, system, zpow_neg]
    rw [this]
    exact residual_nonneg _ _ _
  · unfold fromPsd new
    norm_num

/-- The hypotheses of `C101_psd` can be met: the levels themselves solve the system. -/
example : Solves (system [1, 2, 4]) ([1, 2, 4].map fun f : ℝ => 3 + 2 / f ^ 2 + 5 / f ^ 3) (5, 2, 3) := by
  refine ⟨by norm_num, fun y _ _ _ => ?_⟩
  have : residual (system [1, 2, 4]) ([1, 2, 4].map fun f : ℝ => 3 + 2 / f ^ 2 + 5 / f ^ 3) (5, 2, 3) = 0 := by
    norm_num [residual, system, zpow_neg]
  rw [this]
  exact residual_nonneg _ _ _

/-! ### Parameters and storage -/

/-- C101, parameters: negative levels are refused, all others are kept. -/
theorem C101_levels (K0 K2 K3 : ℝ) (seed : Option ℕ) :
    (0 ≤ K0 ∧ 0 ≤ K2 ∧ 0 ≤ K3 → new K0 K2 K3 seed = .ok ⟨K0, K2, K3, seed⟩) ∧
    (K0 < 0 ∨ K2 < 0 ∨ K3 < 0 → new K0 K2 K3 seed = .error .value) := by
  unfold new
  constructor
  · rintro ⟨h0, h2, h3⟩
    rw [if_neg (not_lt.mpr h0), if_neg (not_lt.mpr h2), if_neg (not_lt.mpr h3)]
  · intro h
    repeat' split
    all_goals first | rfl | (exfalso; rcases h with h | h | h <;> contradiction)

/-- `serialize` and `Deserialize`, `phase_noise.py` 328-340. -/
noncomputable def Oscillator.restored (o : Oscillator) : Except PyErr Oscillator := new o.K0 o.K2 o.K3 none

/-- C101, storage: restored oscillators have the levels stored. -/
theorem C101_store_partial (K0 K2 K3 : ℝ) (seed : Option ℕ) (o : Oscillator) (h : new K0 K2 K3 seed = .ok o) :
    o.restored = .ok { o with seed := none } := by
  unfold new at h
  repeat' split at h
  all_goals first
    | (cases h; exact (C101_levels K0 K2 K3 none).1 ⟨not_lt.mp (by assumption), not_lt.mp (by assumption), not_lt.mp (by assumption)⟩)
    | cases h

/-- C101 fails: the seed of an oscillator is not restored. -/
theorem C101_store_fails (K0 K2 K3 : ℝ) (h0 : 0 ≤ K0) (h2 : 0 ≤ K2) (h3 : 0 ≤ K3) (seed : ℕ) :
    ∃ o o', new K0 K2 K3 (some seed) = .ok o ∧ o.restored = .ok o' ∧ o' ≠ o := by
  refine ⟨_, _, (C101_levels K0 K2 K3 (some seed)).1 ⟨h0, h2, h3⟩, (C101_levels K0 K2 K3 none).1 ⟨h0, h2, h3⟩, ?_⟩
  intro h
  cases h

/-- The parameters by default, and a signal of two streams. -/
example : new (10 ^ (-110 / 10 : ℝ)) 10 (10 ^ 4) none = .ok ⟨10 ^ (-110 / 10 : ℝ), 10, 10 ^ 4, none⟩ ∧
    Aligned (⟨[[1, Complex.I, 2], [3, 0, 1]], 3, 1000, 5, 0, 0, [5, 6], [0, 0]⟩ : RfSignal ℂ) :=
  ⟨(C101_levels _ _ _ _).1 ⟨by positivity, by norm_num, by norm_num⟩, rfl, rfl, by simp⟩

/-- The covariance of the second and third sample for a random walk and flicker noise. -/
example : covariance 1 0 1 1 1 2 = 8 * π ^ 3 * (1 * (3 / 2) + 3 / 2 * (15 / 8)) := by
  norm_num [covariance, flicker, Finset.sum_range_succ, Nat.centralBinom, Nat.choose]

end Verif.PhaseNoise
