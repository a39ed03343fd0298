import Verif.Rf.Ramp

/-!
# C106: radar front ends with ramp generators

Model of the radar waveform of `simulation/rf/presets/ti/xwr1843.py`.  Floats are real numbers; samples exact complex
numbers.  The estimation is modelled from the output of the mixers: high-pass filters, quantization, phase noise and
amplifiers in between are not.
-/

namespace Verif.Xwr

open Complex Verif.Ramp
open Verif.Signal (truncInt)
open Verif.FmcwRadar (light light_pos fft2 Estimate exp_turn_iff turns_sum)

noncomputable section

/-- `__adc_sampling_rate`, `xwr1843.py` 45. -/
def adcRate : ℝ := 12500000

open Classical in
/-- The factor of the coarse downsampling, `xwr1843.py` 180-181. -/
def decimation (fs : ℝ) : ℕ := if adcRate < fs then (truncInt (fs / adcRate)).toNat else 1

/-- `signal[:, ::decimation_factor]`, `xwr1843.py` 182. -/
def every (d : ℕ) (x : List ℂ) : List ℂ := (List.range ((x.length + d - 1) / d)).map fun m => x.getD (m * d) 0

/-- `num_chirp_samples`, `xwr1843.py` 183-185. -/
def columns (p : Params) (fs : ℝ) : ℕ := (truncInt (p.interval * (fs / decimation fs))).toNat

/-- `estimate` of a single stream, `xwr1843.py` 176-196.  `resample` stands for `scipy.signal.resample`; arrays without
elements can not be transformed.  The shift moves the column `(k + n - n // 2) % n` of the transform to column `k`; of the
first `n // 2 + 1` columns, `fliplr` moves the last one, that of the mean, to the front. -/
def estimate (p : Params) (resample : ℕ → List ℂ → List ℂ) (fs : ℝ) (signal : List ℂ) : Except PyErr Estimate :=
  let n := columns p fs
  if signal = [] ∨ n * p.chirps = 0 then .error .value
  else
    let x := resample (n * p.chirps) (every (decimation fs) signal)
    let stack := (List.range p.chirps).map fun r => (List.range n).map fun i => x.getD (r * n + i) 0
    .ok ⟨p.chirps, n / 2 + 1, fun i j => ‖fft2 stack p.chirps n ((i + (p.chirps - p.chirps / 2)) % p.chirps)
      ((n / 2 - j + (n - n / 2)) % n) / ((n * p.chirps : ℕ) : ℂ)‖ ^ 2⟩

/-- `max_range`, `xwr1843.py` 207-209. -/
def maxRange (p : Params) : ℝ := adcRate * light / (4 * p.slope)

/-- `range_bins`, `xwr1843.py` 198-201; a single bin is that of range zero. -/
def rangeBins (p : Params) : List ℝ :=
  let n := (truncInt (p.interval * adcRate / 2)).toNat + 1
  (List.range n).map fun (j : ℕ) => (j : ℝ) * maxRange p / ((n : ℝ) - 1)

/-- `range_resolution`, `xwr1843.py` 211-213. -/
def rangeResolution (p : Params) (B : ℝ) : ℝ := 2 * maxRange p / (p.interval * B)

/-- `frame_duration`, `xwr1843.py` 203-205. -/
def frameDuration (p : Params) : ℝ := p.chirps * p.interval

/-- `max_relative_doppler`, `xwr1843.py` 215-219. -/
def maxDoppler (p : Params) : ℝ := 1 / (4 * p.interval)

/-- `relative_doppler_resolution`, `xwr1843.py` 221-225. -/
def dopplerResolution (p : Params) : ℝ := 1 / (2 * p.chirps * p.interval)

/-- `relative_doppler_bins`, `xwr1843.py` 227-233. -/
def dopplerBins (p : Params) : List ℝ :=
  (List.range p.chirps).map fun (i : ℕ) => (i : ℝ) * dopplerResolution p - maxDoppler p

/-- `energy`, `xwr1843.py` 155-157. -/
def energy (p : Params) (B : ℝ) (os : ℕ) : ℝ := p.chirps * B ^ 2 / p.slope * os

/-- The number of samples of `ping`, `xwr1843.py` 164-174. -/
def pingSamples (p : Params) (fs : ℝ) : ℤ := truncInt (frameDuration p * fs)

/-! ### Estimates -/

theorem adc_pos : 0 < adcRate := by norm_num [adcRate]

/-- Sums of a tone over several samples are smaller than their number unless it does not turn. -/
theorem band (n : ℕ) (hn : 0 < n) (a b : ℕ) (hab : a + 2 ≤ b) (d : ℤ) :
    ((n : ℤ) ∣ d → ‖∑ m ∈ Finset.Ico a b, exp (2 * Real.pi * I * d / n) ^ m‖ = ((b - a : ℕ) : ℝ)) ∧
    (¬ (n : ℤ) ∣ d → ‖∑ m ∈ Finset.Ico a b, exp (2 * Real.pi * I * d / n) ^ m‖ < ((b - a : ℕ) : ℝ)) := by
  set z := exp (2 * Real.pi * I * d / n) with hz
  have hzn : ‖z‖ = 1 := by
    have : z = exp (((2 * Real.pi * (d : ℝ) / n : ℝ) : ℂ) * I) := by
      rw [hz]
      congr 1
      push_cast
      ring
    rw [this, Complex.norm_exp_ofReal_mul_I]
  have hsum : ∑ m ∈ Finset.Ico a b, z ^ m = z ^ a * ∑ t ∈ Finset.range (b - a), z ^ t := by
    rw [Finset.sum_Ico_eq_sum_range, Finset.mul_sum]
    exact Finset.sum_congr rfl fun t _ => pow_add _ _ _
  rw [hsum, norm_mul, norm_pow, hzn, one_pow, one_mul]
  constructor
  · intro h
    rw [hz, (exp_turn_iff n hn d).mpr h]
    simp
  · intro h
    have hz1 : z ≠ 1 := fun h1 => h ((exp_turn_iff n hn d).mp h1)
    exact Verif.ChirpFsk.norm_sum_lt (fun t => z ^ t) (b - a) 1 (fun t => by simp [hzn]) (by simp) (by omega)
      (by simpa using hz1)

/-- The product of a delayed ramp with the conjugate of the ramp is a tone. -/
theorem beat (fs B s : ℝ) (hf : 0 < fs) (hs : 0 < s) (T : ℝ) (n D k q m : ℕ) (hn : 0 < n) (hT : T * fs = (n * D : ℕ))
    (hq : s * (k / fs) * T = q) (hk : k ≤ m * D) :
    sample fs B s (m * D - k) * (starRingEnd ℂ) (sample fs B s (m * D)) =
      exp (((Real.pi * (B * (k / fs) + s * (k / fs) ^ 2) : ℝ) : ℂ) * I) * exp (2 * Real.pi * I * (-(q : ℤ) : ℤ) / n) ^ m := by
  have hn' : (n : ℝ) ≠ 0 := by exact_mod_cast hn.ne'
  have hreal : s * (k / fs) * ((m * D : ℕ) / fs) = q * m / n := by
    have h1 : ((D : ℕ) : ℝ) / fs = T / n := by
      rw [div_eq_div_iff hf.ne' hn', hT]
      push_cast; ring
    push_cast
    rw [mul_div_assoc (m : ℝ) D fs, h1, ← hq]
    ring
  have hreal2 : s * (k / fs) * (m * D / fs) = (q : ℝ) * m / n := by
    rw [← hreal]; push_cast; ring
  unfold sample
  simp only [if_pos hs]
  rw [← Complex.exp_conj, ← Complex.exp_nat_mul, ← Complex.exp_add, ← Complex.exp_add]
  congr 1
  rw [map_mul, Complex.conj_ofReal, Complex.conj_I]
  have hc : (s : ℂ) * (k / fs) * (m * D / fs) = (q : ℂ) * m / n := by
    have := congrArg (fun x : ℝ => (x : ℂ)) hreal2
    push_cast at this
    exact this
  push_cast [Nat.cast_sub hk]
  have e : (-(q : ℂ)) * m / n = -(s * (k / fs) * (m * D / fs)) := by rw [hc]; ring
  have e2 : (m : ℂ) * (2 * Real.pi * I * -(q : ℂ) / n) = 2 * Real.pi * I * (-(q : ℂ) * m / n) := by ring
  rw [e2, e]
  ring

/-- The samples of one chirp. -/
theorem frame_get (p : Params) (fs : ℝ) (hf : 0 < fs) (hi : 0 < p.interval) (hb : 0 < p.bandwidth) (hs : 0 < p.slope)
    (N c : ℕ) (hN : p.interval * fs = N) (hc : p.bandwidth / p.slope * fs = c) (hcN : c ≤ N) (lo : List ℂ)
    (h : frame fs p = .ok lo) :
    lo.length = p.chirps * N ∧ ∀ r < p.chirps, ∀ i < N, lo.getD (r * N + i) 0 =
      if i < c then sample fs p.bandwidth p.slope i else 0 := by
  have hg : guarded fs p.interval = N := by rw [guarded, hN, truncInt_nonneg (by positivity)]; simp
  have ha : active fs p.bandwidth p.slope p.interval = c := by
    rw [active, hg, hc, truncInt_nonneg (by positivity)]
    simp [hcN]
  rw [frame, chirp_ok hf hi hb hs, hg, ha] at h
  cases h
  simp only [Int.toNat_natCast]
  set one := (List.range c).map (sample fs p.bandwidth p.slope) ++ List.replicate (N - c) 0 with hone
  have hlen : one.length = N := by
    rw [hone]; simp; omega
  refine ⟨by rw [List.length_flatten, List.map_replicate, List.sum_replicate, hlen, smul_eq_mul], fun r hr i hi' => ?_⟩
  have hget := flatten_replicate_get one p.chirps r i hr (by omega)
  rw [hlen] at hget
  rw [List.getD_eq_getElem?_getD, hget, hone]
  split
  · rename_i hic
    rw [List.getElem?_append_left (by simpa using hic), List.getElem?_map, List.getElem?_range hic]
    rfl
  · rename_i hic
    rw [List.getElem?_append_right (by simpa using hic)]
    simp only [List.length_map, List.length_range]
    rw [List.getElem?_replicate, if_pos (by omega)]
    rfl

theorem decimation_pos (fs : ℝ) : 0 < decimation fs := by
  unfold decimation
  split
  · rename_i h
    have h1 : 1 ≤ fs / adcRate := by
      rw [le_div_iff₀ adc_pos]; linarith
    rw [truncInt_nonneg (by linarith)]
    have : (1 : ℤ) ≤ ⌊fs / adcRate⌋ := Int.le_floor.mpr (by exact_mod_cast h1)
    omega
  · exact Nat.one_pos

theorem columns_eq (p : Params) (fs : ℝ) (n : ℕ) (hn : p.interval * fs = (n * decimation fs : ℕ)) : columns p fs = n := by
  have hd : (decimation fs : ℝ) ≠ 0 := by exact_mod_cast (decimation_pos fs).ne'
  have : p.interval * (fs / decimation fs) = n := by
    rw [← mul_div_assoc, hn]; push_cast; field_simp
  rw [columns, this, truncInt_nonneg (by positivity)]
  simp

/-- C106, targets: the echo of a target, delayed by `k` samples and turned by the same phase from chirp to chirp, mixed with
the ramp generated, is the only maximum of the estimate, in the range bin of the frequency its distance turns into and in
the Doppler bin of its rotation.  Ramps and intervals last whole samples, echoes end before the next ramp, and the frequency
is one of the transform. -/
theorem C106_target_partial (p : Params) (fs : ℝ) (hf : 0 < fs) (hi : 0 < p.interval) (hb : 0 < p.bandwidth)
    (hs : 0 < p.slope) (hP : 0 < p.chirps) (n c k q : ℕ) (hn : p.interval * fs = (n * decimation fs : ℕ))
    (hc : p.bandwidth / p.slope * fs = c) (hguard : k + c ≤ n * decimation fs) (hk : k + 2 * decimation fs ≤ c)
    (hq : p.slope * (k / fs) * p.interval = q) (hq2 : 2 * q ≤ n) (resample : ℕ → List ℂ → List ℂ)
    (hres : ∀ x : List ℂ, resample x.length x = x) (A : ℂ) (hA : A ≠ 0) (μ : ℤ) (lo echo : List ℂ)
    (hlo : frame fs p = .ok lo) (hl : echo.length = lo.length)
    (he : ∀ r < p.chirps, ∀ i < n * decimation fs, echo.getD (r * (n * decimation fs) + i) 0 =
      A * exp (2 * Real.pi * I * μ / p.chirps) ^ r * if k ≤ i then lo.getD (i - k) 0 else 0) :
    ∃ e, estimate p resample fs (List.zipWith (fun a b => a * (starRingEnd ℂ) b) echo lo) = .ok e ∧ e.rows = p.chirps ∧
      e.cols = n / 2 + 1 ∧
      ∀ ρ < p.chirps, (p.chirps : ℤ) ∣ ((ρ + (p.chirps - p.chirps / 2) : ℕ) : ℤ) - μ → ∀ i < p.chirps, ∀ j < n / 2 + 1,
        (i, j) ≠ (ρ, q) → e.power i j < e.power ρ q := by
  set D := decimation fs with hD
  have hD0 : 0 < D := decimation_pos fs
  have hnD : 0 < n * D := by omega
  have hn0 : 0 < n := Nat.pos_of_mul_pos_right hnD
  obtain ⟨hll, hlg⟩ := frame_get p fs hf hi hb hs (n * D) c hn hc (by omega) lo hlo
  set mixed := List.zipWith (fun a b => a * (starRingEnd ℂ) b) echo lo with hmixed
  have hml : mixed.length = p.chirps * (n * D) := by
    rw [hmixed, List.length_zipWith, hl, Nat.min_self, hll]
  have hmg : ∀ i < p.chirps * (n * D), mixed.getD i 0 = echo.getD i 0 * (starRingEnd ℂ) (lo.getD i 0) := by
    intro i hi
    rw [hmixed]
    simp only [List.getD_eq_getElem?_getD]
    rw [List.getElem?_zipWith, List.getElem?_eq_getElem (by omega : i < echo.length),
      List.getElem?_eq_getElem (by omega : i < lo.length)]
    rfl
  have hel : (every D mixed).length = n * p.chirps := by
    rw [every, List.length_map, List.length_range, hml]
    rw [show p.chirps * (n * D) + D - 1 = (D - 1) + D * (n * p.chirps) by
      have : p.chirps * (n * D) = D * (n * p.chirps) := by ring
      omega]
    rw [Nat.add_mul_div_left _ _ hD0, Nat.div_eq_of_lt (by omega), Nat.zero_add]
  have hx : resample (n * p.chirps) (every D mixed) = every D mixed := by
    rw [← hel]; exact hres _
  set g : ℂ := exp (((Real.pi * (p.bandwidth * (k / fs) + p.slope * (k / fs) ^ 2) : ℝ) : ℂ) * I) with hg
  have hgn : ‖g‖ = 1 := Complex.norm_exp_ofReal_mul_I _
  obtain ⟨a, ha⟩ : ∃ a, ∀ m, k ≤ m * D ↔ a ≤ m := by
    refine ⟨(k + D - 1) / D, fun m => ?_⟩
    rw [Nat.div_le_iff_le_mul hD0]
    omega
  obtain ⟨b, hb'⟩ : ∃ b, ∀ m, m * D < c ↔ m < b := by
    refine ⟨(c + D - 1) / D, fun m => ?_⟩
    rw [Nat.lt_div_iff_mul_lt hD0]
    have : D * m = m * D := Nat.mul_comm _ _
    omega
  have hbn : b ≤ n := by
    by_contra h
    have := (hb' n).mpr (by omega)
    omega
  have hab : a + 2 ≤ b := by
    have h1 : ¬ a ≤ a - 1 ∨ a = 0 := by omega
    have h2 : (a + 1) * D < c := by
      rcases h1 with h1 | h1
      · have := mt (ha (a - 1)).mp h1
        have e : (a + 1) * D = (a - 1) * D + 2 * D := by
          have : a + 1 = (a - 1) + 2 := by omega
          rw [this, Nat.add_mul]
        omega
      · rw [h1]
        omega
    exact (hb' (a + 1)).mp h2
  have hmul : ∀ r < p.chirps, ∀ m < n, r * (n * D) + m * D < p.chirps * (n * D) := by
    intro r hr m hm
    have h1 : (r + 1) * (n * D) ≤ p.chirps * (n * D) := Nat.mul_le_mul_right _ hr
    have h2 : (m + 1) * D ≤ n * D := Nat.mul_le_mul_right _ hm
    rw [Nat.add_mul] at h1 h2
    omega
  set stack := (List.range p.chirps).map fun r => (List.range n).map fun i => (every D mixed).getD (r * n + i) 0 with hst
  have hrow : ∀ r < p.chirps, ∀ m < n, (stack.getD r []).getD m 0 = if a ≤ m ∧ m < b then
      A * exp (2 * Real.pi * I * μ / p.chirps) ^ r * (g * exp (2 * Real.pi * I * (-(q : ℤ) : ℤ) / n) ^ m) else 0 := by
    intro r hr m hm
    have h1 : (stack.getD r []).getD m 0 = (every D mixed).getD (r * n + m) 0 := by
      rw [hst, List.getD_eq_getElem?_getD (l := stack), hst, List.getElem?_map, List.getElem?_range hr]
      simp only [Option.map_some, Option.getD_some]
      rw [List.getD_eq_getElem?_getD, List.getElem?_map, List.getElem?_range hm]
      rfl
    have hlt : r * n + m < n * p.chirps := by
      have : (r + 1) * n ≤ p.chirps * n := Nat.mul_le_mul_right _ hr
      rw [Nat.add_mul, Nat.mul_comm p.chirps] at this
      omega
    have h2 : (every D mixed).getD (r * n + m) 0 = mixed.getD (r * (n * D) + m * D) 0 := by
      have hlt' := hlt
      rw [← hel, every, List.length_map, List.length_range] at hlt'
      rw [List.getD_eq_getElem?_getD, every, List.getElem?_map, List.getElem?_range hlt']
      simp only [Option.map_some, Option.getD_some]
      congr 1
      ring
    have hmD : m * D < n * D := Nat.mul_lt_mul_of_pos_right hm hD0
    rw [h1, h2, hmg _ (hmul r hr m hm), he r hr _ hmD, hlg r hr _ hmD]
    by_cases hka : a ≤ m
    · have hkm := (ha m).mpr hka
      rw [if_pos hkm]
      have h3 := hlg 0 hP (m * D - k) (by omega)
      rw [Nat.zero_mul, Nat.zero_add] at h3
      rw [h3]
      by_cases hmb : m < b
      · have hmc := (hb' m).mpr hmb
        rw [if_pos hmc, if_pos (by omega), if_pos ⟨hka, hmb⟩, mul_assoc,
          beat fs p.bandwidth p.slope hf hs p.interval n D k q m hn0 hn hq hkm]
      · have h4 : ¬ m * D < c := fun h => hmb ((hb' m).mp h)
        have h5 : ¬ (a ≤ m ∧ m < b) := fun h => hmb h.2
        rw [if_neg h4, if_neg h5, map_zero, mul_zero]
    · have h4 : ¬ k ≤ m * D := fun h => hka ((ha m).mp h)
      have h5 : ¬ (a ≤ m ∧ m < b) := fun h => hka h.1
      rw [if_neg h4, if_neg h5, mul_zero, zero_mul]
  have hfft : ∀ ρ κ : ℕ, fft2 stack p.chirps n ρ κ = A * g *
      ((∑ r ∈ Finset.range p.chirps, exp (2 * Real.pi * I * ((μ - ρ : ℤ) : ℂ) / p.chirps) ^ r) *
        ∑ m ∈ Finset.Ico a b, exp (2 * Real.pi * I * ((-(q : ℤ) - κ : ℤ) : ℂ) / n) ^ m) := by
    intro ρ κ
    have hico : ∑ m ∈ Finset.Ico a b, exp (2 * Real.pi * I * ((-(q : ℤ) - κ : ℤ) : ℂ) / n) ^ m =
        ∑ m ∈ Finset.range n, if a ≤ m ∧ m < b then exp (2 * Real.pi * I * ((-(q : ℤ) - κ : ℤ) : ℂ) / n) ^ m else 0 := by
      rw [← Finset.sum_filter]
      congr 1
      ext m
      simp only [Finset.mem_filter, Finset.mem_range, Finset.mem_Ico]
      omega
    rw [hico]
    unfold fft2
    rw [Finset.sum_mul_sum, Finset.mul_sum]
    refine Finset.sum_congr rfl fun r hr => ?_
    rw [Finset.mem_range] at hr
    rw [Finset.mul_sum]
    refine Finset.sum_congr rfl fun m hm => ?_
    rw [Finset.mem_range] at hm
    rw [hrow r hr m hm]
    split
    · simp only [← Complex.exp_nat_mul]
      have e2 : ∀ a b c d e : ℂ, a * exp b * (c * exp d) * exp e = a * c * exp (b + d + e) := by
        intro a b c d e
        rw [Complex.exp_add, Complex.exp_add]
        ring
      rw [e2, ← Complex.exp_add]
      congr 2
      push_cast
      ring
    · simp
  have hcol := columns_eq p fs n hn
  have hne : mixed ≠ [] := by
    intro h
    rw [h, List.length_nil] at hml
    have := Nat.mul_pos hP hnD
    omega
  refine ⟨⟨p.chirps, n / 2 + 1, fun i j => ‖fft2 stack p.chirps n ((i + (p.chirps - p.chirps / 2)) % p.chirps)
      ((n / 2 - j + (n - n / 2)) % n) / ((n * p.chirps : ℕ) : ℂ)‖ ^ 2⟩, ?_, rfl, rfl, ?_⟩
  · unfold estimate
    simp only [hcol]
    have h0 : ¬ (mixed = [] ∨ n * p.chirps = 0) := by
      rintro (h | h)
      · exact hne h
      · have := Nat.mul_pos hn0 hP
        omega
    rw [if_neg h0, ← hD, hx]
  · intro ρ hρ hd i hi' j hj hne'
    have hmod : ∀ i : ℕ, (p.chirps : ℤ) ∣ μ - (((i + (p.chirps - p.chirps / 2)) % p.chirps : ℕ) : ℤ) ↔
        (p.chirps : ℤ) ∣ ((i + (p.chirps - p.chirps / 2) : ℕ) : ℤ) - μ := by
      intro i
      have : ((i + (p.chirps - p.chirps / 2) : ℕ) : ℤ) = (((i + (p.chirps - p.chirps / 2)) % p.chirps : ℕ) : ℤ) +
          p.chirps * ((i + (p.chirps - p.chirps / 2)) / p.chirps : ℕ) := by
        exact_mod_cast (Nat.mod_add_div _ _).symm
      rw [this, ← dvd_neg, neg_sub, add_sub_right_comm]
      exact (dvd_add_left (dvd_mul_right _ _)).symm
    have hcolm : ∀ j < n / 2 + 1, ((n : ℤ) ∣ -(q : ℤ) - (((n / 2 - j + (n - n / 2)) % n : ℕ) : ℤ) ↔ j = q) := by
      intro j hj
      have h1 : n / 2 - j + (n - n / 2) = n - j := by omega
      rw [h1]
      have h2 : (n : ℤ) ∣ -(q : ℤ) - (((n - j) % n : ℕ) : ℤ) ↔ (n : ℤ) ∣ (j : ℤ) - q := by
        have h3 : (((n - j) % n : ℕ) : ℤ) = (n : ℤ) - j - n * ((n - j) / n : ℕ) := by
          have : (((n - j : ℕ)) : ℤ) = (((n - j) % n : ℕ) : ℤ) + n * ((n - j) / n : ℕ) := by
            exact_mod_cast (Nat.mod_add_div _ _).symm
          rw [Nat.cast_sub (by omega)] at this
          linarith
        rw [h3]
        have h4 : -(q : ℤ) - ((n : ℤ) - j - n * ((n - j) / n : ℕ)) = ((j : ℤ) - q) + n * (((n - j) / n : ℕ) - 1) := by ring
        rw [h4]
        exact dvd_add_left (dvd_mul_right _ _)
      rw [h2]
      constructor
      · intro h
        have := Int.eq_zero_of_abs_lt_dvd h (by rw [abs_lt]; constructor <;> omega)
        omega
      · rintro rfl
        simp
    have hA' : 0 < ‖A‖ * p.chirps := mul_pos (norm_pos_iff.mpr hA) (by exact_mod_cast hP)
    have hnorm : ∀ ρ κ : ℕ, ‖fft2 stack p.chirps n ρ κ‖ = if (p.chirps : ℤ) ∣ μ - ρ then
        ‖A‖ * p.chirps * ‖∑ m ∈ Finset.Ico a b, exp (2 * Real.pi * I * ((-(q : ℤ) - κ : ℤ) : ℂ) / n) ^ m‖ else 0 := by
      intro ρ κ
      rw [hfft, turns_sum _ hP]
      split
      · rw [norm_mul, norm_mul, norm_mul, hgn, Complex.norm_natCast]
        ring
      · simp
    have hscale : (0 : ℝ) < ‖((n * p.chirps : ℕ) : ℂ)‖ := by
      rw [Complex.norm_natCast]
      exact_mod_cast Nat.mul_pos hn0 hP
    simp only
    refine pow_lt_pow_left₀ ?_ (norm_nonneg _) two_ne_zero
    rw [norm_div, norm_div]
    refine div_lt_div_of_pos_right ?_ hscale
    have hq' : q < n / 2 + 1 := by omega
    have hpk := (band n hn0 a b hab (-(q : ℤ) - (((n / 2 - q + (n - n / 2)) % n : ℕ) : ℤ))).1 ((hcolm q hq').mpr rfl)
    rw [hnorm, hnorm, if_pos ((hmod ρ).mpr hd), hpk]
    split
    · rename_i hdi
      rw [hmod] at hdi
      have hir : i = ρ := by
        have h1 : (p.chirps : ℤ) ∣ (i : ℤ) - ρ := by
          have := dvd_sub hdi hd
          have e : ((i + (p.chirps - p.chirps / 2) : ℕ) : ℤ) - μ - (((ρ + (p.chirps - p.chirps / 2) : ℕ) : ℤ) - μ) =
              (i : ℤ) - ρ := by rw [Nat.cast_add, Nat.cast_add]; ring
          rwa [e] at this
        have := Int.eq_zero_of_abs_lt_dvd h1 (by rw [abs_lt]; constructor <;> omega)
        omega
      have hjk : j ≠ q := by
        rintro rfl
        exact hne' (by rw [hir])
      exact mul_lt_mul_of_pos_left ((band n hn0 a b hab _).2 fun h => hjk ((hcolm j hj).mp h)) hA'
    · refine mul_pos hA' ?_
      have : 0 < b - a := by omega
      exact_mod_cast this

/-! ### Labels -/

theorem rangeBins_get (p : Params) (m j : ℕ) (hm : truncInt (p.interval * adcRate / 2) = m) (hj : j ≤ m) :
    (rangeBins p)[j]? = some ((j : ℝ) * maxRange p / m) := by
  rw [rangeBins]
  simp only [hm, Int.toNat_natCast]
  rw [List.getElem?_map, List.getElem?_range (by omega)]
  simp

/-- C106, ranges: the bin of an echo is labelled with the distance of its delay, if an interval is an even number of samples
of the analog to digital converter. -/
theorem C106_range_partial (p : Params) (hs : 0 < p.slope) (m q : ℕ) (hm0 : 0 < m)
    (hm : p.interval * adcRate = (2 * m : ℕ)) (delay : ℝ) (hq : p.slope * delay * p.interval = q) (hq2 : q ≤ m) :
    (rangeBins p)[q]? = some (light * delay / 2) := by
  have ht : truncInt (p.interval * adcRate / 2) = m := by
    rw [hm]; push_cast
    rw [mul_div_cancel_left₀ _ two_ne_zero, truncInt_nonneg (by positivity)]; simp
  have hm' : (m : ℝ) ≠ 0 := by exact_mod_cast hm0.ne'
  rw [rangeBins_get p m q ht hq2, ← hq, maxRange]
  congr 1
  have h1 : p.slope * delay * p.interval * (adcRate * light / (4 * p.slope)) / m =
      delay * light / 4 * (p.interval * adcRate) / m := by
    field_simp
  rw [h1, hm]
  push_cast
  field_simp
  ring

/-- C106 fails for odd numbers of samples, such as that of the default configuration: ranges are labelled too large. -/
theorem C106_range_fails (p : Params) (hs : 0 < p.slope) (m q : ℕ) (hm0 : 0 < m)
    (hm : p.interval * adcRate = (2 * m + 1 : ℕ)) (delay : ℝ) (hq : p.slope * delay * p.interval = q) (hq0 : 0 < q)
    (hq2 : q ≤ m) :
    ∃ label, (rangeBins p)[q]? = some label ∧ label = (1 + 1 / (2 * m)) * (light * delay / 2) ∧
      light * delay / 2 < label := by
  have ht : truncInt (p.interval * adcRate / 2) = m := by
    rw [hm, truncInt_nonneg (by positivity), Int.floor_eq_iff]
    push_cast
    constructor <;> linarith
  have hm' : (0 : ℝ) < m := by exact_mod_cast hm0
  have hi : 0 < p.interval := by
    have h : 0 < p.interval * adcRate := by rw [hm]; positivity
    exact pos_of_mul_pos_left h adc_pos.le
  have hd : 0 < delay := by
    have h1 : 0 < p.slope * delay * p.interval := by rw [hq]; exact_mod_cast hq0
    have h2 := pos_of_mul_pos_left h1 hi.le
    exact pos_of_mul_pos_right h2 hs.le
  have e : (q : ℝ) * maxRange p / m = (1 + 1 / (2 * m)) * (light * delay / 2) := by
    rw [← hq, maxRange]
    have h1 : p.slope * delay * p.interval * (adcRate * light / (4 * p.slope)) / m =
        delay * light / 4 * (p.interval * adcRate) / m := by
      field_simp
    rw [h1, hm]
    push_cast
    field_simp
    norm_num
  refine ⟨_, rangeBins_get p m q ht hq2, e, ?_⟩
  rw [e]
  have hl := light_pos
  have h2 : 0 < light * delay / 2 := by positivity
  have h3 : 0 < 1 / (2 * (m : ℝ)) := by positivity
  nlinarith

/-- C106 fails for the range resolution: neighbouring bins are `c / (2 s T)` apart for ramps of slope `s` and intervals `T`,
the resolution reported is that multiplied by the sampling rate of the converter and divided by the bandwidth. -/
theorem C106_resolution_fails (p : Params) (hs : 0 < p.slope) (m j : ℕ) (hm : p.interval * adcRate = (2 * m : ℕ))
    (hj : j + 1 ≤ m) (B : ℝ) (hB : 0 < B) (hne : B ≠ adcRate) :
    ∃ x y, (rangeBins p)[j]? = some x ∧ (rangeBins p)[j + 1]? = some y ∧
      y - x = light / (2 * (p.slope * p.interval)) ∧ rangeResolution p B = adcRate / B * (y - x) ∧
      rangeResolution p B ≠ y - x := by
  have ht : truncInt (p.interval * adcRate / 2) = m := by
    rw [hm]; push_cast
    rw [mul_div_cancel_left₀ _ two_ne_zero, truncInt_nonneg (by positivity)]; simp
  have hm' : (0 : ℝ) < m := by exact_mod_cast (by omega : 0 < m)
  have ha := adc_pos
  have hi : 0 < p.interval := by
    have h : 0 < p.interval * adcRate := by rw [hm]; push_cast; positivity
    exact pos_of_mul_pos_left h adc_pos.le
  have hl := light_pos
  have hmv : (m : ℝ) = p.interval * adcRate / 2 := by rw [hm]; push_cast; ring
  have e : ((j + 1 : ℕ) : ℝ) * maxRange p / m - (j : ℝ) * maxRange p / m = light / (2 * (p.slope * p.interval)) := by
    rw [maxRange, hmv]
    push_cast
    field_simp
    ring
  have e2 : rangeResolution p B = adcRate / B * (light / (2 * (p.slope * p.interval))) := by
    rw [rangeResolution, maxRange]
    field_simp
    norm_num
  refine ⟨_, _, rangeBins_get p m j ht (by omega), rangeBins_get p m (j + 1) ht hj, e, by rw [e, e2], ?_⟩
  rw [e, e2]
  have h3 : 0 < light / (2 * (p.slope * p.interval)) := by positivity
  intro h
  have h4 : adcRate / B = 1 := mul_right_cancel₀ h3.ne' (by rw [h, one_mul])
  rw [div_eq_one_iff_eq hB.ne'] at h4
  exact hne h4.symm

/-- C106 fails for sampling rates less than that of the converter: there are more labels than columns of the estimate. -/
theorem C106_slow_fails (p : Params) (fs : ℝ) (hf : 0 < fs) (hslow : fs < adcRate) (hP : 0 < p.chirps) (n m : ℕ)
    (hn0 : 0 < n) (hn : p.interval * fs = (2 * n : ℕ)) (hm : p.interval * adcRate = (2 * m : ℕ))
    (resample : ℕ → List ℂ → List ℂ) (signal : List ℂ) (hs : signal ≠ []) :
    ∃ e, estimate p resample fs signal = .ok e ∧ e.cols < (rangeBins p).length := by
  have hd : decimation fs = 1 := by rw [decimation, if_neg (by linarith)]
  have hc : columns p fs = 2 * n := columns_eq p fs (2 * n) (by rw [hd, hn]; simp)
  have ht : truncInt (p.interval * adcRate / 2) = m := by
    rw [hm]; push_cast
    rw [mul_div_cancel_left₀ _ two_ne_zero, truncInt_nonneg (by positivity)]; simp
  have h0 : ¬ (signal = [] ∨ columns p fs * p.chirps = 0) := by
    rintro (h | h)
    · exact hs h
    · rw [hc] at h
      have := Nat.mul_pos (by omega : 0 < 2 * n) hP
      omega
  refine ⟨_, by unfold estimate; simp only; rw [if_neg h0], ?_⟩
  have hi : 0 < p.interval := by
    have h : 0 < p.interval * fs := by rw [hn]; exact_mod_cast (by omega : 0 < 2 * n)
    exact pos_of_mul_pos_left h hf.le
  have hlt : n < m := by
    have h1 : ((2 * n : ℕ) : ℝ) < (2 * m : ℕ) := by
      rw [← hn, ← hm]
      exact mul_lt_mul_of_pos_left hslow hi
    have h2 : 2 * n < 2 * m := by exact_mod_cast h1
    omega
  simp only [hc, rangeBins, ht, List.length_map, List.length_range, Int.toNat_natCast]
  omega

/-- C106, velocities: the echo of a target with the relative velocity `vel`, turned from chirp to chirp as the radar channel
does, is the only maximum of the estimate, in a bin labelled with its velocity and, for even numbers of samples of the
converter per interval, its distance.  Numbers of chirps are even. -/
theorem C106_velocity_partial (p : Params) (fs : ℝ) (hf : 0 < fs) (hi : 0 < p.interval) (hb : 0 < p.bandwidth)
    (hs : 0 < p.slope) (hP : 0 < p.chirps) (heven : p.chirps % 2 = 0) (n c k q m : ℕ)
    (hn : p.interval * fs = (n * decimation fs : ℕ))
    (hc : p.bandwidth / p.slope * fs = c) (hguard : k + c ≤ n * decimation fs) (hk : k + 2 * decimation fs ≤ c)
    (hq : p.slope * (k / fs) * p.interval = q) (hq2 : 2 * q ≤ n) (hm0 : 0 < m) (hm : p.interval * adcRate = (2 * m : ℕ))
    (hqm : q ≤ m) (resample : ℕ → List ℂ → List ℂ)
    (hres : ∀ x : List ℂ, resample x.length x = x) (A : ℂ) (hA : A ≠ 0) (fc vel : ℝ) (hfc : 0 < fc) (μ : ℤ)
    (hμ : vel = μ * dopplerResolution p * light / fc) (hμ1 : 2 * |μ| < p.chirps) (lo echo : List ℂ)
    (hlo : frame fs p = .ok lo) (hl : echo.length = lo.length)
    (he : ∀ r < p.chirps, ∀ i < n * decimation fs, echo.getD (r * (n * decimation fs) + i) 0 =
      A * Verif.RadarChannel.weight (2 * vel) fc fs 0 (r * (n * decimation fs)) *
        if k ≤ i then lo.getD (i - k) 0 else 0) :
    ∃ e ρ label, estimate p resample fs (List.zipWith (fun a b => a * (starRingEnd ℂ) b) echo lo) = .ok e ∧
      e.rows = p.chirps ∧ e.cols = n / 2 + 1 ∧ ρ < p.chirps ∧
      (∀ i < p.chirps, ∀ j < n / 2 + 1, (i, j) ≠ (ρ, q) → e.power i j < e.power ρ q) ∧
      (rangeBins p)[q]? = some (light * (k / fs) / 2) ∧
      (dopplerBins p)[ρ]? = some label ∧ label * light / fc = vel := by
  have hll := light_pos
  have hP' : (p.chirps : ℝ) ≠ 0 := by exact_mod_cast hP.ne'
  have hw : ∀ r : ℕ, Verif.RadarChannel.weight (2 * vel) fc fs 0 (r * (n * decimation fs)) =
      exp (2 * Real.pi * I * μ / p.chirps) ^ r := by
    intro r
    unfold Verif.RadarChannel.weight
    rw [← Complex.exp_nat_mul]
    congr 1
    have : (2 * vel * fc / Verif.RadarChannel.light * (0 + ((r * (n * decimation fs) : ℕ) : ℝ) / fs) : ℝ) =
        r * μ / p.chirps := by
      change 2 * vel * fc / light * (0 + ((r * (n * decimation fs) : ℕ) : ℝ) / fs) = _
      rw [hμ, Nat.cast_mul r, ← hn]
      unfold dopplerResolution
      field_simp
      ring
    rw [this]
    push_cast
    ring
  obtain ⟨e, h1, h2, h3, h4⟩ := C106_target_partial p fs hf hi hb hs hP n c k q hn hc hguard hk hq hq2 resample hres A hA μ
    lo echo hlo hl fun r hr i hi => by rw [he r hr i hi, hw]
  have habs : -(p.chirps : ℤ) < 2 * μ ∧ 2 * μ < p.chirps := by
    have := le_abs_self μ
    have := neg_le_abs μ
    omega
  have hρ : ((((p.chirps / 2 : ℕ) : ℤ) + μ).toNat : ℤ) = ((p.chirps / 2 : ℕ) : ℤ) + μ := Int.toNat_of_nonneg (by omega)
  have hlt : (((p.chirps / 2 : ℕ) : ℤ) + μ).toNat < p.chirps := by omega
  refine ⟨e, (((p.chirps / 2 : ℕ) : ℤ) + μ).toNat,
    ((((p.chirps / 2 : ℕ) : ℤ) + μ).toNat : ℝ) * dopplerResolution p - maxDoppler p, h1, h2, h3, hlt, h4 _ hlt ?_,
    C106_range_partial p hs m q hm0 hm _ hq hqm, ?_, ?_⟩
  · refine ⟨1, ?_⟩
    rw [Nat.cast_add, hρ]
    omega
  · rw [dopplerBins, List.getElem?_map, List.getElem?_range hlt]
    rfl
  · have h5 : (((((p.chirps / 2 : ℕ) : ℤ) + μ).toNat : ℕ) : ℝ) = (p.chirps : ℝ) / 2 + μ := by
      have h6 : (((((p.chirps / 2 : ℕ) : ℤ) + μ).toNat : ℤ) : ℝ) = ((((p.chirps / 2 : ℕ) : ℤ) + μ : ℤ) : ℝ) := by rw [hρ]
      rw [Int.cast_natCast] at h6
      rw [h6, Int.cast_add, Int.cast_natCast, Nat.cast_div (by omega) (by norm_num)]
      norm_num
    have h7 : maxDoppler p = p.chirps / 2 * dopplerResolution p := by
      unfold maxDoppler dopplerResolution
      field_simp
      norm_num
    rw [h5, hμ, h7]
    ring

/-- C106 fails for odd numbers of chirps: the Doppler bin of targets at rest, the only one without rotation, is labelled
with half a resolution. -/
theorem C106_odd_fails (p : Params) (hi : 0 < p.interval) (hodd : p.chirps % 2 = 1) (ρ : ℕ) (hρ : ρ < p.chirps)
    (hd : (p.chirps : ℤ) ∣ ((ρ + (p.chirps - p.chirps / 2) : ℕ) : ℤ) - 0) :
    (dopplerBins p)[ρ]? = some (-(dopplerResolution p / 2)) ∧ dopplerResolution p ≠ 0 := by
  have hρ' : 2 * ρ + 1 = p.chirps := by
    rw [sub_zero] at hd
    obtain ⟨z, hz⟩ := hd
    have : z = 1 := by
      have h1 : 0 < z := by
        by_contra h
        have : (p.chirps : ℤ) * z ≤ 0 := mul_nonpos_of_nonneg_of_nonpos (by positivity) (by omega)
        omega
      have h2 : z < 2 := by
        by_contra h
        have : (p.chirps : ℤ) * 2 ≤ p.chirps * z := mul_le_mul_of_nonneg_left (by omega) (by positivity)
        omega
      omega
    rw [this] at hz
    omega
  have hP : (0 : ℝ) < p.chirps := by exact_mod_cast (by omega : 0 < p.chirps)
  constructor
  · rw [dopplerBins, List.getElem?_map, List.getElem?_range hρ]
    simp only [Option.map_some, Option.some.injEq]
    have h1 : (ρ : ℝ) = (p.chirps - 1) / 2 := by
      have : (2 : ℝ) * ρ + 1 = p.chirps := by exact_mod_cast hρ'
      linarith
    rw [h1]
    unfold dopplerResolution maxDoppler
    field_simp
    ring
  · unfold dopplerResolution
    positivity

/-! ### Frames -/

/-- C106, frames: a ping has as many samples as the ramps generated, if intervals last whole samples. -/
theorem C106_frame_partial (p : Params) (fs : ℝ) (hf : 0 < fs) (hi : 0 < p.interval) (hb : 0 < p.bandwidth)
    (hs : 0 < p.slope) (n : ℕ) (hn : p.interval * fs = n) :
    ∃ x, frame fs p = .ok x ∧ pingSamples p fs = x.length := by
  obtain ⟨x, h1, h2, -⟩ := C105_interval_partial p fs hf hi hb hs n hn
  refine ⟨x, h1, ?_⟩
  rw [div_eq_iff hf.ne'] at h2
  rw [pingSamples, frameDuration, ← h2, truncInt_nonneg (by positivity)]
  simp

/-- C106 fails for other intervals: for some number of chirps, pings last longer than the ramps. -/
theorem C106_frame_fails (p : Params) (fs : ℝ) (hf : 0 < fs) (hi : 0 < p.interval) (hb : 0 < p.bandwidth)
    (hs : 0 < p.slope) (hn : ∀ n : ℕ, p.interval * fs ≠ n) :
    ∃ chirps x, frame fs { p with chirps := chirps } = .ok x ∧ (x.length : ℤ) < pingSamples { p with chirps := chirps } fs := by
  obtain ⟨chirps, x, h1, h2⟩ := C105_interval_fails p fs hf hi hb hs hn 1
  refine ⟨chirps, x, h1, ?_⟩
  rw [pingSamples, frameDuration, truncInt_nonneg (by simp only; positivity)]
  refine Int.lt_of_add_one_le (Int.le_floor.mpr ?_)
  push_cast at h2 ⊢
  linarith

/-- Energy of samples. -/
def energyOf (x : List ℂ) : ℝ := (x.map fun z => ‖z‖ ^ 2).sum

theorem frame_energy (p : Params) (fs : ℝ) (hf : 0 < fs) (hi : 0 < p.interval) (hb : 0 < p.bandwidth) (hs : 0 < p.slope)
    (c : ℕ) (hc : p.bandwidth / p.slope * fs = c) (hT : p.bandwidth / p.slope ≤ p.interval) :
    ∃ x, frame fs p = .ok x ∧ energyOf x = p.chirps * c := by
  refine ⟨_, by rw [frame, chirp_ok hf hi hb hs], ?_⟩
  have ha : active fs p.bandwidth p.slope p.interval = c := by
    rw [active, guarded, truncInt_nonneg (by positivity), hc, truncInt_nonneg (by positivity)]
    have : (⌊(c : ℝ)⌋ : ℤ) ≤ ⌊p.interval * fs⌋ := Int.floor_le_floor (by rw [← hc]; nlinarith)
    rw [min_eq_right this]
    simp
  rw [ha]
  have hone : energyOf ((List.range c).map (sample fs p.bandwidth p.slope) ++
      List.replicate ((guarded fs p.interval).toNat - c) 0) = c := by
    rw [energyOf, List.map_append, List.sum_append, List.map_map, List.map_replicate, List.sum_replicate]
    have : ∀ i ∈ List.range c, ((fun z : ℂ => ‖z‖ ^ 2) ∘ sample fs p.bandwidth p.slope) i = 1 := by
      intro i _
      simp only [Function.comp, sample, Complex.norm_exp_ofReal_mul_I, one_pow]
    rw [List.map_congr_left this]
    simp
  have hrep : ∀ (x : List ℂ) (k : ℕ), energyOf (List.replicate k x).flatten = k * energyOf x := by
    intro x k
    induction k with
    | zero => simp [energyOf]
    | succ k ih =>
      rw [List.replicate_succ, List.flatten_cons]
      have : ∀ a b : List ℂ, energyOf (a ++ b) = energyOf a + energyOf b := by
        intro a b
        simp [energyOf]
      rw [this, ih]
      push_cast
      ring
  rw [Int.toNat_natCast, hrep, hone]

/-- C106, energy: the energy reported is that of the ramps generated, if the bandwidth of the device is that of the ramps. -/
theorem C106_energy_partial (p : Params) (os : ℕ) (hos : 0 < os) (hi : 0 < p.interval) (hb : 0 < p.bandwidth)
    (hs : 0 < p.slope) (c : ℕ) (hc : p.bandwidth / p.slope * (p.bandwidth * os) = c)
    (hT : p.bandwidth / p.slope ≤ p.interval) :
    ∃ x, frame (p.bandwidth * os) p = .ok x ∧ energyOf x = energy p p.bandwidth os := by
  have hos' : (0 : ℝ) < os := by exact_mod_cast hos
  obtain ⟨x, h1, h2⟩ := frame_energy p (p.bandwidth * os) (by positivity) hi hb hs c hc hT
  refine ⟨x, h1, ?_⟩
  rw [h2, ← hc, energy]
  ring

/-- C106 fails for the energy of ramps of another bandwidth than that of the device. -/
theorem C106_energy_fails (p : Params) (B : ℝ) (hB : 0 < B) (hne : B ≠ p.bandwidth) (hP : 0 < p.chirps) (os : ℕ)
    (hos : 0 < os) (hi : 0 < p.interval) (hb : 0 < p.bandwidth)
    (hs : 0 < p.slope) (c : ℕ) (hc : p.bandwidth / p.slope * (B * os) = c)
    (hT : p.bandwidth / p.slope ≤ p.interval) :
    ∃ x, frame (B * os) p = .ok x ∧ energy p B os = B / p.bandwidth * energyOf x ∧ energy p B os ≠ energyOf x := by
  have hos' : (0 : ℝ) < os := by exact_mod_cast hos
  have hP' : (0 : ℝ) < p.chirps := by exact_mod_cast hP
  obtain ⟨x, h1, h2⟩ := frame_energy p (B * os) (by positivity) hi hb hs c hc hT
  have e : energy p B os = B / p.bandwidth * energyOf x := by
    rw [h2, ← hc, energy]
    field_simp
  refine ⟨x, h1, e, ?_⟩
  have hpos : 0 < energyOf x := by
    rw [h2, ← hc]
    positivity
  rw [e]
  intro h
  have h4 : B / p.bandwidth = 1 := mul_right_cancel₀ hpos.ne' (by rw [h, one_mul])
  rw [div_eq_one_iff_eq hb.ne'] at h4
  exact hne h4

/-! ### Long signals -/

/-- A tone turning `f` times over `l` samples. -/
def turning (f : ℤ) (l : ℕ) : List ℂ := (List.range l).map fun (m : ℕ) => exp (2 * Real.pi * I * f * m / l)

/-- C106 fails for signals longer than the frame: all of their samples are resampled to a frame.  The tone of a target,
observed for twice as long, is found in the bin of twice the distance, and nothing in its own. -/
theorem C106_long_fails (p : Params) (fs : ℝ) (hP : 0 < p.chirps) (n q : ℕ)
    (hn0 : 0 < n) (hn : p.interval * fs = (n * decimation fs : ℕ)) (hq0 : 0 < q) (hq : 4 * q < n)
    (resample : ℕ → List ℂ → List ℂ)
    (hres : ∀ (f : ℤ) (l num : ℕ), 2 * |f| < l → 2 * |f| < num → resample num (turning f l) = turning f num)
    (signal : List ℂ) (hl : signal.length = 2 * (p.chirps * (n * decimation fs)))
    (hsig : ∀ i < signal.length, signal.getD i 0 = exp (2 * Real.pi * I * (-(q : ℤ) : ℤ) * i / (n * decimation fs : ℕ))) :
    ∃ e, estimate p resample fs signal = .ok e ∧ ∀ ρ < p.chirps,
      (p.chirps : ℤ) ∣ ((ρ + (p.chirps - p.chirps / 2) : ℕ) : ℤ) → e.power ρ (2 * q) = 1 ∧ e.power ρ q = 0 := by
  set D := decimation fs with hD
  have hD0 : 0 < D := decimation_pos fs
  have hcol := columns_eq p fs n hn
  have hnP : 0 < n * p.chirps := Nat.mul_pos hn0 hP
  have hn' : (n : ℂ) ≠ 0 := by exact_mod_cast hn0.ne'
  have hP' : (p.chirps : ℂ) ≠ 0 := by exact_mod_cast hP.ne'
  have hD' : (D : ℂ) ≠ 0 := by exact_mod_cast hD0.ne'
  have hlen : (signal.length + D - 1) / D = 2 * (n * p.chirps) := by
    rw [hl, show 2 * (p.chirps * (n * D)) + D - 1 = (D - 1) + D * (2 * (n * p.chirps)) by
      have : 2 * (p.chirps * (n * D)) = D * (2 * (n * p.chirps)) := by ring
      omega]
    rw [Nat.add_mul_div_left _ _ hD0, Nat.div_eq_of_lt (by omega), Nat.zero_add]
  have hev : every D signal = turning (-(2 * (q * p.chirps : ℕ) : ℤ)) (2 * (n * p.chirps)) := by
    rw [every, turning, hlen]
    refine List.map_congr_left fun m hm => ?_
    rw [List.mem_range] at hm
    have hlt : m * D < signal.length := by
      rw [hl]
      calc m * D < 2 * (n * p.chirps) * D := Nat.mul_lt_mul_of_pos_right hm hD0
        _ = 2 * (p.chirps * (n * D)) := by ring
    rw [hsig _ hlt]
    congr 1
    push_cast
    field_simp
  have hbound : 4 * (q * p.chirps) < n * p.chirps := by
    rw [← mul_assoc]
    exact Nat.mul_lt_mul_of_pos_right hq hP
  have habs : |-(2 * (q * p.chirps : ℕ) : ℤ)| = 2 * (q * p.chirps : ℕ) := by
    rw [abs_neg, abs_of_nonneg (by positivity)]
  have hx : resample (n * p.chirps) (every D signal) = turning (-(2 * (q * p.chirps : ℕ) : ℤ)) (n * p.chirps) := by
    rw [hev]
    refine hres _ _ _ ?_ ?_ <;> rw [habs] <;> omega
  have h0 : ¬ (signal = [] ∨ columns p fs * p.chirps = 0) := by
    rintro (h | h)
    · rw [h, List.length_nil] at hl
      have : 0 < p.chirps * (n * D) := Nat.mul_pos hP (Nat.mul_pos hn0 hD0)
      omega
    · rw [hcol] at h
      omega
  refine ⟨_, by unfold estimate; simp only; rw [if_neg h0], ?_⟩
  intro ρ hρ hd
  simp only [hcol]
  rw [← hD, hx]
  set stack := (List.range p.chirps).map fun r => (List.range n).map fun i =>
    (turning (-(2 * (q * p.chirps : ℕ) : ℤ)) (n * p.chirps)).getD (r * n + i) 0 with hst
  have hrow : ∀ r < p.chirps, ∀ m < n, (stack.getD r []).getD m 0 = exp (2 * Real.pi * I * ((-(2 * q : ℕ) : ℤ) : ℂ) * m / n) := by
    intro r hr m hm
    have h1 : (stack.getD r []).getD m 0 =
        (turning (-(2 * (q * p.chirps : ℕ) : ℤ)) (n * p.chirps)).getD (r * n + m) 0 := by
      rw [hst, List.getD_eq_getElem?_getD (l := stack), hst, List.getElem?_map, List.getElem?_range hr]
      simp only [Option.map_some, Option.getD_some]
      rw [List.getD_eq_getElem?_getD, List.getElem?_map, List.getElem?_range hm]
      rfl
    have hlt : r * n + m < n * p.chirps := by
      have : (r + 1) * n ≤ p.chirps * n := Nat.mul_le_mul_right _ hr
      rw [Nat.add_mul, Nat.mul_comm p.chirps] at this
      omega
    rw [h1, turning, List.getD_eq_getElem?_getD, List.getElem?_map, List.getElem?_range hlt]
    simp only [Option.map_some, Option.getD_some]
    rw [Complex.exp_eq_exp_iff_exists_int]
    refine ⟨-(2 * q * r : ℕ), ?_⟩
    push_cast
    field_simp
    ring
  have hfft : ∀ ρ κ : ℕ, fft2 stack p.chirps n ρ κ =
      (if (p.chirps : ℤ) ∣ -(ρ : ℤ) then (p.chirps : ℂ) else 0) *
        if (n : ℤ) ∣ (-(2 * q : ℕ) : ℤ) - κ then (n : ℂ) else 0 := by
    intro ρ κ
    rw [← turns_sum _ hP, ← turns_sum _ hn0, Finset.sum_mul_sum]
    unfold fft2
    refine Finset.sum_congr rfl fun r hr => ?_
    rw [Finset.mem_range] at hr
    refine Finset.sum_congr rfl fun m hm => ?_
    rw [Finset.mem_range] at hm
    rw [hrow r hr m hm, ← Complex.exp_nat_mul, ← Complex.exp_nat_mul, ← Complex.exp_add, ← Complex.exp_add]
    congr 1
    push_cast
    ring
  have hr0 : (ρ + (p.chirps - p.chirps / 2)) % p.chirps = 0 := by
    have : p.chirps ∣ ρ + (p.chirps - p.chirps / 2) := by exact_mod_cast hd
    exact Nat.mod_eq_zero_of_dvd this
  have hc1 : (n / 2 - 2 * q + (n - n / 2)) % n = n - 2 * q := by
    rw [show n / 2 - 2 * q + (n - n / 2) = n - 2 * q by omega]
    exact Nat.mod_eq_of_lt (by omega)
  have hc2 : (n / 2 - q + (n - n / 2)) % n = n - q := by
    rw [show n / 2 - q + (n - n / 2) = n - q by omega]
    exact Nat.mod_eq_of_lt (by omega)
  rw [hr0, hc1, hc2, hfft, hfft]
  have hd1 : (n : ℤ) ∣ (-(2 * q : ℕ) : ℤ) - ((n - 2 * q : ℕ) : ℤ) := ⟨-1, by push_cast [Nat.cast_sub (by omega : 2 * q ≤ n)]; ring⟩
  have hd2 : ¬ (n : ℤ) ∣ (-(2 * q : ℕ) : ℤ) - ((n - q : ℕ) : ℤ) := by
    intro h
    have h1 : (-(2 * q : ℕ) : ℤ) - ((n - q : ℕ) : ℤ) = -(q : ℤ) + n * (-1) := by
      push_cast [Nat.cast_sub (by omega : q ≤ n)]; ring
    rw [h1, dvd_add_left (dvd_mul_right _ _)] at h
    have := Int.eq_zero_of_abs_lt_dvd h (by rw [abs_lt]; constructor <;> omega)
    omega
  rw [if_pos (by simp : (p.chirps : ℤ) ∣ -((0 : ℕ) : ℤ)), if_pos hd1, if_neg hd2]
  constructor
  · have : (p.chirps : ℂ) * n / ((n * p.chirps : ℕ) : ℂ) = 1 := by
      push_cast
      field_simp
    rw [this]; simp
  · simp

/-! ### Examples -/

/-- The default configuration, `xwr1843.py` 43 and 51-53: an interval is an odd number of samples of the converter. -/
def defaults : Params := ⟨16, 3000000000, 100000000000000, 3 / 100000⟩

example : create 16 3000000000 100000000000000 (3 / 100000) = .ok defaults := by
  rw [(C105_create _ _ _ _).1 (by norm_num)]
  rfl
example : defaults.interval * adcRate = (2 * 187 + 1 : ℕ) := by norm_num [defaults, adcRate]
example : defaults.slope * (1 / 3000000000) * defaults.interval = (1 : ℕ) := by norm_num [defaults]

/-- Ramps of half the interval; echoes with a delay of eight samples at twice the rate of the converter turn once. -/
def sparse : Params := ⟨4, 6250000, 12500000 * 12500000 / 16, 16 / 12500000⟩

theorem sparse_decimation : decimation 25000000 = 2 := by
  rw [decimation, if_pos (by norm_num [adcRate]), truncInt_nonneg (by norm_num [adcRate])]
  norm_num [adcRate]
  rfl

example : sparse.interval * 25000000 = (16 * decimation 25000000 : ℕ) := by
  rw [sparse_decimation]; norm_num [sparse]
example : sparse.bandwidth / sparse.slope * 25000000 = (16 : ℕ) := by norm_num [sparse]
example : 8 + 16 ≤ 16 * decimation 25000000 ∧ 8 + 2 * decimation 25000000 ≤ 16 := by rw [sparse_decimation]; norm_num
example : sparse.slope * ((8 : ℕ) / 25000000) * sparse.interval = (4 : ℕ) := by norm_num [sparse]
example : sparse.interval * adcRate = (2 * 8 : ℕ) := by norm_num [sparse, adcRate]

/-- An echo as the theorems on targets require it. -/
example (p : Params) (N k : ℕ) (lo : List ℂ) (g : ℕ → ℂ) :
    ∃ echo : List ℂ, echo.length = p.chirps * N ∧ ∀ r < p.chirps, ∀ i < N, echo.getD (r * N + i) 0 =
      g r * if k ≤ i then lo.getD (i - k) 0 else 0 := by
  refine ⟨(List.range (p.chirps * N)).map fun t => g (t / N) * if k ≤ t % N then lo.getD (t % N - k) 0 else 0, by simp,
    fun r hr i hi => ?_⟩
  have hlt : r * N + i < p.chirps * N := by
    have : (r + 1) * N ≤ p.chirps * N := Nat.mul_le_mul_right _ hr
    rw [Nat.add_mul] at this
    omega
  have h1 : (r * N + i) / N = r := by
    rw [Nat.mul_comm, Nat.mul_add_div (by omega), Nat.div_eq_of_lt hi, Nat.add_zero]
  have h2 : (r * N + i) % N = i := by
    rw [Nat.mul_comm, Nat.mul_add_mod, Nat.mod_eq_of_lt hi]
  rw [List.getD_eq_getElem?_getD, List.getElem?_map, List.getElem?_range hlt]
  simp only [Option.map_some, Option.getD_some, h1, h2]

end

end Verif.Xwr
