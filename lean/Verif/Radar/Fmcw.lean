import Mathlib.Analysis.SpecialFunctions.Complex.Circle
import Mathlib.Analysis.SpecialFunctions.Trigonometric.Basic
import Mathlib.Algebra.BigOperators.Intervals
import Mathlib.Tactic.FieldSimp
import Mathlib.Tactic.Linarith
import Mathlib.Tactic.Ring
import Verif.Np
import Verif.Signal.Dense
import Verif.Modem.ChirpFsk
import Verif.Channel.RadarPath

/-!
# C93: frequency modulated continuous wave radar

`hermespy/radar/fmcw.py`: construction, frames, estimates and bins of `FMCW` radar waveforms.  Parameters are real,
samples complex numbers.  The filters of `scipy.signal.decimate` and `resample_poly` are oracles.
-/

namespace Verif.FmcwRadar

open Complex Verif.Signal

/-- `scipy.constants.speed_of_light`. -/
noncomputable def light : ℝ := Verif.RadarChannel.light

/-- The attributes of `FMCW`; an `adc` of zero derives the rate from the bandwidth. -/
structure Fmcw where
  chirps : ℕ
  duration : ℝ
  interval : ℝ
  adc : ℝ

open Classical in
/-- `FMCW.__init__` and its setters, `radar/fmcw.py` 53-89, 205-210, 228-233, 245-250 and 268-273. -/
noncomputable def create (chirps : ℤ) (duration interval : ℝ) (adc : Option ℝ) : Except PyErr Fmcw :=
  if chirps < 1 then .error .value
  else if duration ≤ 0 then .error .value
  else if interval ≤ 0 then .error .value
  else if adc.getD 0 < 0 then .error .value
  else .ok ⟨chirps.toNat, duration, interval, adc.getD 0⟩

/-- A sample of `__chirp_prototype`, `radar/fmcw.py` 293-300. -/
noncomputable def Fmcw.sample (w : Fmcw) (B : ℝ) (os i : ℕ) : ℂ :=
  let t : ℝ := i / (B * os)
  exp (((Real.pi * (-B * t + B / w.duration * t ^ 2) : ℝ) : ℂ) * I)

/-- `num_samples` of `__chirp_prototype`, `radar/fmcw.py` 293-294; no samples for negative numbers. -/
noncomputable def Fmcw.numSamples (w : Fmcw) (B : ℝ) (os : ℕ) : ℕ := (truncInt (w.duration * (B * os))).toNat

/-- `__chirp_prototype`, `radar/fmcw.py` 282-300. -/
noncomputable def Fmcw.chirp (w : Fmcw) (B : ℝ) (os : ℕ) : List ℂ := (List.range (w.numSamples B os)).map (w.sample B os)

/-- `__pulse_prototype`, `radar/fmcw.py` 302-325. -/
noncomputable def Fmcw.pulse (w : Fmcw) (B : ℝ) (os : ℕ) : Except PyErr (List ℂ) :=
  let zeros := truncInt ((w.interval - w.duration) * B * os)
  if zeros < 0 then .error .runtime else .ok (w.chirp B os ++ List.replicate zeros.toNat 0)

/-- `ping` and `__frame_prototype`, `radar/fmcw.py` 91-95 and 327-333: the single stream of the signal. -/
noncomputable def Fmcw.ping (w : Fmcw) (B : ℝ) (os : ℕ) : Except PyErr (List ℂ) :=
  match w.pulse B os with
  | .error e => .error e
  | .ok pulse => .ok (List.replicate w.chirps pulse).flatten

open Classical in
/-- `max_range`, `radar/fmcw.py` 139-143. -/
noncomputable def Fmcw.maxRange (w : Fmcw) (B : ℝ) : ℝ := (if 0 < w.adc then w.adc else B) * light / (2 * B / w.duration)

/-- `range_resolution`, `radar/fmcw.py` 145-147. -/
noncomputable def rangeResolution (B : ℝ) : ℝ := light / (2 * B)

/-- `max_relative_doppler`, `radar/fmcw.py` 149-154. -/
noncomputable def Fmcw.maxDoppler (w : Fmcw) : ℝ := 1 / (4 * w.interval)

/-- `frame_duration`, `radar/fmcw.py` 171-173. -/
noncomputable def Fmcw.frameDuration (w : Fmcw) : ℝ := w.interval * w.chirps

/-- `relative_doppler_resolution`, `radar/fmcw.py` 156-161. -/
noncomputable def Fmcw.dopplerResolution (w : Fmcw) : ℝ := 1 / (2 * w.frameDuration)

/-- `relative_doppler_bins`, `radar/fmcw.py` 163-169. -/
noncomputable def Fmcw.dopplerBins (w : Fmcw) : List ℝ :=
  (List.range w.chirps).map fun (i : ℕ) => i * w.dopplerResolution - w.maxDoppler

/-- `samples_per_frame`, `radar/fmcw.py` 175-177. -/
noncomputable def Fmcw.samplesPerFrame (w : Fmcw) (B : ℝ) (os : ℕ) : ℤ := truncInt (w.frameDuration * B * os)

open Classical in
/-- `range_bins`, `radar/fmcw.py` 179-189, with `np.linspace` of both end points. -/
noncomputable def Fmcw.rangeBins (w : Fmcw) (B : ℝ) : Except PyErr (List ℝ) :=
  let adcB := if w.adc ≤ 0 then B else w.adc
  let mr := w.maxRange adcB
  let num := truncInt (mr / rangeResolution B)
  if num < 0 then .error .value
  else .ok ((List.range num.toNat).map fun (k : ℕ) => (k : ℝ) * mr / ((num : ℝ) - 1))

/-- `energy`, `radar/fmcw.py` 275-276. -/
noncomputable def Fmcw.energy (w : Fmcw) (B : ℝ) (os : ℕ) : ℤ := w.chirps * truncInt (w.duration * B * os)

/-- The first stream, cut or padded with zeros, `radar/fmcw.py` 102-110. -/
def fit (total : ℕ) (signal : List ℂ) : List ℂ :=
  if total ≤ signal.length then signal.take total else signal ++ List.replicate (total - signal.length) 0

/-- `chirp_stack[:, : len(chirp_prototype)].conj() * chirp_prototype` of one row, `radar/fmcw.py` 114-116; rows of a single
sample are stretched. -/
noncomputable def mix (proto row : List ℂ) : Except PyErr (List ℂ) :=
  let x := row.take proto.length
  if x.length = proto.length then .ok (List.zipWith (fun a b => (starRingEnd ℂ) a * b) x proto)
  else if x.length = 1 then .ok (proto.map ((starRingEnd ℂ) (x.headD 0) * ·))
  else .error .value

/-- The same of all rows. -/
noncomputable def mixAll (proto : List ℂ) : List (List ℂ) → Except PyErr (List (List ℂ))
  | [] => .ok []
  | row :: rows =>
    match mix proto row with
    | .error e => .error e
    | .ok x =>
      match mixAll proto rows with
      | .error e => .error e
      | .ok xs => .ok (x :: xs)

/-- `scipy.fft.fft2(rows, (n, m))`: rows are cut or padded with zeros. -/
noncomputable def fft2 (rows : List (List ℂ)) (n m ρ κ : ℕ) : ℂ :=
  ∑ r ∈ Finset.range n, ∑ i ∈ Finset.range m, (rows.getD r []).getD i 0 *
    exp (-(2 * Real.pi * I * (((ρ * r : ℕ) : ℂ) / n + ((κ * i : ℕ) : ℂ) / m)))

/-- What `estimate` returns: power by Doppler and range bins. -/
structure Estimate where
  rows : ℕ
  cols : ℕ
  power : ℕ → ℕ → ℝ

open Classical in
/-- `estimate`, `radar/fmcw.py` 97-137.  `resample` stands for `resample_poly` at the rational number close to its argument,
`decimate` for `scipy.signal.decimate`; both treat rows one by one.  Arrays without columns cannot be reshaped or
transformed.  `ifftshift` moves row `n // 2` to the front. -/
noncomputable def Fmcw.estimate (w : Fmcw) (resample : ℝ → List ℂ → List ℂ) (decimate : ℕ → List ℂ → List ℂ)
    (signal : List ℂ) (B : ℝ) (os : ℕ) : Except PyErr Estimate :=
  let fs := B * os
  let p := (truncInt (w.interval * fs)).toNat
  let input := fit (w.chirps * p) signal
  if p = 0 then .error .value
  else
    let stack := (List.range w.chirps).map fun r => (List.range p).map fun i => input.getD (r * p + i) 0
    match mixAll (w.chirp B os) stack with
    | .error e => .error e
    | .ok mixed =>
      let sampled := if 0 < w.adc ∧ w.adc < fs then mixed.map (resample (w.adc / fs)) else mixed.map (decimate os)
      let adcB := if 0 < w.adc ∧ w.adc < fs then w.adc else B
      let bins := truncInt (w.maxRange adcB / rangeResolution B)
      if bins < 1 then .error .value
      else .ok ⟨w.chirps, bins.toNat, fun i k => ‖fft2 sampled w.chirps bins.toNat ((i + w.chirps / 2) % w.chirps) k‖ ^ 2⟩

/-! ### Frames -/

theorem light_pos : 0 < light := Verif.RadarChannel.light_pos

/-- C93, configuration: exactly chirps, durations and intervals larger than zero and rates not negative are accepted, and
kept. -/
theorem C93_configuration (chirps : ℤ) (duration interval : ℝ) (adc : Option ℝ) :
    ((∃ w, create chirps duration interval adc = .ok w) ↔
      1 ≤ chirps ∧ 0 < duration ∧ 0 < interval ∧ ∀ a, adc = some a → 0 ≤ a) ∧
    ∀ w, create chirps duration interval adc = .ok w →
      (w.chirps : ℤ) = chirps ∧ 0 < w.chirps ∧ w.duration = duration ∧ w.interval = interval ∧ w.adc = adc.getD 0 := by
  unfold create
  constructor
  · constructor
    · rintro ⟨w, h⟩
      split at h
      · simp at h
      · split at h
        · simp at h
        · split at h
          · simp at h
          · split at h
            · simp at h
            · rename_i h1 h2 h3 h4
              refine ⟨by omega, not_le.mp h2, not_le.mp h3, ?_⟩
              rintro a rfl
              simpa using h4
    · rintro ⟨h1, h2, h3, h4⟩
      have h5 : ¬ adc.getD 0 < 0 := by
        cases adc with
        | none => simp
        | some a => simpa using h4 a rfl
      exact ⟨⟨chirps.toNat, duration, interval, adc.getD 0⟩, by
        rw [if_neg (by omega), if_neg (not_le.mpr h2), if_neg (not_le.mpr h3), if_neg h5]⟩
  · intro w h
    split at h
    · simp at h
    · split at h
      · simp at h
      · split at h
        · simp at h
        · split at h
          · simp at h
          · simp only [Except.ok.injEq] at h
            subst h
            refine ⟨?_, ?_, rfl, rfl, rfl⟩ <;> simp only <;> omega

theorem chirp_length (w : Fmcw) (B : ℝ) (os : ℕ) : (w.chirp B os).length = w.numSamples B os := by simp [Fmcw.chirp]

theorem norm_sample (w : Fmcw) (B : ℝ) (os i : ℕ) : ‖w.sample B os i‖ = 1 := Complex.norm_exp_ofReal_mul_I _

theorem truncInt_neg_iff (x : ℝ) : truncInt x < 0 ↔ x ≤ -1 := by
  unfold truncInt
  split
  · rename_i h
    constructor
    · intro h1
      have := Int.floor_nonneg.mpr h
      omega
    · intro h1
      linarith
  · rename_i h
    rw [Int.ceil_lt_iff, ]
    constructor
    · intro h1
      push_cast at h1
      linarith
    · intro h1
      push_cast
      linarith

/-- C93, frames: a frame consists of the configured number of pulses, each the chirp of magnitude one followed by silence;
intervals shorter than the chirp by a sample or more are refused. -/
theorem C93_ping (w : Fmcw) (B : ℝ) (os : ℕ) :
    ((w.interval - w.duration) * B * os ≤ -1 → w.ping B os = .error .runtime) ∧
    (-1 < (w.interval - w.duration) * B * os → ∃ y p, w.ping B os = .ok y ∧ w.numSamples B os ≤ p ∧ y.length = w.chirps * p ∧
      ∀ r < w.chirps, ∀ i < p, y.getD (r * p + i) 0 = if i < w.numSamples B os then w.sample B os i else 0) := by
  constructor
  · intro h
    unfold Fmcw.ping Fmcw.pulse
    simp only [(truncInt_neg_iff _).mpr h, if_true]
  · intro h
    have h0 : ¬ truncInt ((w.interval - w.duration) * B * os) < 0 := by
      rw [truncInt_neg_iff]
      linarith
    set z := (truncInt ((w.interval - w.duration) * B * os)).toNat with hz
    set pulse := w.chirp B os ++ List.replicate z 0 with hp
    have hpl : pulse.length = w.numSamples B os + z := by
      rw [hp, List.length_append, chirp_length, List.length_replicate]
    refine ⟨(List.replicate w.chirps pulse).flatten, pulse.length, ?_, by omega, by simp, ?_⟩
    · unfold Fmcw.ping Fmcw.pulse
      simp only [h0, if_false]
      rw [← hz]
    · intro r hr i hi
      rw [List.getD_eq_getElem?_getD]
      have hu : ∀ l ∈ List.replicate w.chirps pulse, l.length = pulse.length := by
        intro l hl
        rw [List.eq_of_mem_replicate hl]
      rw [Np.getElem?_flatten_uniform _ _ hu r i hi]
      rw [List.getElem?_replicate, if_pos hr]
      simp only [Option.bind_some]
      rw [hp]
      split
      · rename_i h1
        rw [List.getElem?_append_left (by rw [chirp_length]; exact h1), Fmcw.chirp, List.getElem?_map,
          List.getElem?_range h1]
        rfl
      · rename_i h1
        rw [List.getElem?_append_right (by rw [chirp_length]; omega), List.getElem?_replicate]
        split <;> rfl


theorem truncInt_nonneg {x : ℝ} (h : 0 ≤ x) : truncInt x = ⌊x⌋ := by
  unfold truncInt
  rw [if_pos h]

theorem truncInt_eq_nat {x : ℝ} {n : ℕ} (h : x = n) : truncInt x = n := by
  rw [h]
  exact_mod_cast truncInt_int n

theorem numSamples_nat (w : Fmcw) (B : ℝ) (os n : ℕ) (h : w.duration * B = n) : w.numSamples B os = n * os := by
  unfold Fmcw.numSamples
  rw [truncInt_eq_nat (n := n * os) (by rw [← mul_assoc, h]; push_cast; ring), Int.toNat_natCast]

/-- C93, energy: the energy of a frame is the announced one. -/
theorem C93_energy (w : Fmcw) (B : ℝ) (os : ℕ) (hB : 0 < B) (hd : 0 < w.duration)
    (hi : -1 < (w.interval - w.duration) * B * os) :
    ∃ y, w.ping B os = .ok y ∧ ((y.map fun z => ‖z‖ ^ 2).sum : ℝ) = w.energy B os := by
  have h0 : ¬ truncInt ((w.interval - w.duration) * B * os) < 0 := by
    rw [truncInt_neg_iff]
    linarith
  refine ⟨(List.replicate w.chirps (w.chirp B os ++ List.replicate
    (truncInt ((w.interval - w.duration) * B * os)).toNat 0)).flatten, ?_, ?_⟩
  · unfold Fmcw.ping Fmcw.pulse
    simp only [h0, if_false]
  · have hc : ((w.chirp B os).map fun z => ‖z‖ ^ 2) = List.replicate (w.numSamples B os) 1 := by
      rw [List.eq_replicate_iff]
      refine ⟨by rw [List.length_map, chirp_length], fun b hb => ?_⟩
      simp only [Fmcw.chirp, List.map_map, List.mem_map, Function.comp_apply] at hb
      obtain ⟨i, -, rfl⟩ := hb
      rw [norm_sample, one_pow]
    rw [List.map_flatten, List.map_replicate, List.sum_flatten, List.map_replicate, List.map_append, List.sum_append, hc]
    simp only [List.map_replicate, norm_zero, List.sum_replicate, nsmul_eq_mul]
    unfold Fmcw.energy Fmcw.numSamples
    have hnn : 0 ≤ truncInt (w.duration * (B * os)) := by
      rw [truncInt_nonneg (by positivity)]
      exact Int.floor_nonneg.mpr (by positivity)
    have : (((truncInt (w.duration * (B * os))).toNat : ℕ) : ℝ) = ((truncInt (w.duration * (B * os)) : ℤ) : ℝ) := by
      exact_mod_cast Int.toNat_of_nonneg hnn
    rw [this, mul_assoc w.duration]
    push_cast
    ring

/-- C93, lengths: frames have the announced number of samples if chirps and intervals last whole samples. -/
theorem C93_samples_partial (w : Fmcw) (B : ℝ) (os a b : ℕ) (ha : w.duration * B * os = a) (hb : w.interval * B * os = b)
    (hab : a ≤ b) : ∃ y, w.ping B os = .ok y ∧ (y.length : ℤ) = w.samplesPerFrame B os := by
  have hz : (w.interval - w.duration) * B * os = ((b - a : ℕ) : ℝ) := by
    rw [Nat.cast_sub hab, ← ha, ← hb]
    ring
  have hzi : truncInt ((w.interval - w.duration) * B * os) = ((b - a : ℕ) : ℤ) := truncInt_eq_nat hz
  have hns : w.numSamples B os = a := by
    unfold Fmcw.numSamples
    rw [truncInt_eq_nat (n := a) (by rw [← mul_assoc, ha])]
    simp
  refine ⟨(List.replicate w.chirps (w.chirp B os ++ List.replicate (b - a) 0)).flatten, ?_, ?_⟩
  · unfold Fmcw.ping Fmcw.pulse
    simp only [hzi]
    rw [if_neg (by omega)]
    simp
  · have hs : w.samplesPerFrame B os = ((w.chirps * b : ℕ) : ℤ) := by
      unfold Fmcw.samplesPerFrame Fmcw.frameDuration
      refine truncInt_eq_nat ?_
      push_cast
      rw [← hb]
      ring
    rw [hs, List.length_flatten, List.map_replicate, List.sum_replicate, List.length_append, chirp_length, hns,
      List.length_replicate, smul_eq_mul, Nat.add_sub_cancel' hab]

/-- C93, lengths: if only intervals last whole samples, pulses are a sample short of them.  Frames are shorter than
announced, and pulses do not start where estimates look for them. -/
theorem C93_samples_fails (w : Fmcw) (B : ℝ) (os b : ℕ) (hB : 0 < B) (hd : 0 < w.duration)
    (ha : ∀ a : ℕ, w.duration * B * os ≠ a) (hb : w.interval * B * os = b)
    (hdi : w.duration * B * os < b) :
    ∃ y, w.ping B os = .ok y ∧ (y.length : ℤ) = w.chirps * ((b : ℤ) - 1) ∧ w.samplesPerFrame B os = w.chirps * (b : ℤ) := by
  have hx : 0 ≤ w.duration * B * os := by positivity
  set x := w.duration * B * os with hxd
  have hfl : ((⌊x⌋.toNat : ℕ) : ℤ) = ⌊x⌋ := Int.toNat_of_nonneg (Int.floor_nonneg.mpr hx)
  have hlt : (⌊x⌋ : ℝ) < x := by
    refine lt_of_le_of_ne (Int.floor_le x) fun h => ha ⌊x⌋.toNat ?_
    have h1 : (⌊x⌋ : ℝ) = ((⌊x⌋.toNat : ℕ) : ℝ) := by exact_mod_cast hfl.symm
    exact h.symm.trans h1
  have hz : (w.interval - w.duration) * B * os = (b : ℝ) - x := by
    rw [← hb, hxd]
    ring
  have hfb : ⌊x⌋ < b := by
    rw [Int.floor_lt]
    exact_mod_cast hdi
  have hzt : truncInt ((w.interval - w.duration) * B * os) = (b : ℤ) - ⌊x⌋ - 1 := by
    rw [hz, truncInt_nonneg (by linarith), Int.floor_eq_iff]
    push_cast
    constructor
    · have := Int.lt_floor_add_one x
      linarith
    · linarith
  have hns : w.numSamples B os = ⌊x⌋.toNat := by
    unfold Fmcw.numSamples
    rw [← mul_assoc, ← hxd, truncInt_nonneg hx]
  refine ⟨(List.replicate w.chirps (w.chirp B os ++ List.replicate ((b : ℤ) - ⌊x⌋ - 1).toNat 0)).flatten, ?_, ?_, ?_⟩
  · unfold Fmcw.ping Fmcw.pulse
    simp only [hzt]
    rw [if_neg (by omega)]
  · rw [List.length_flatten, List.map_replicate, List.sum_replicate, List.length_append, chirp_length, hns,
      List.length_replicate, smul_eq_mul]
    push_cast
    rw [Int.toNat_of_nonneg (Int.floor_nonneg.mpr hx), Int.toNat_of_nonneg (by omega)]
    ring
  · unfold Fmcw.samplesPerFrame Fmcw.frameDuration
    rw [truncInt_eq_nat (n := w.chirps * b) (by push_cast; rw [← hb]; ring)]
    push_cast
    rfl

/-! ### Estimates -/

/-- An ideal sampler, keeping every `s`-th sample. -/
def ideal (s : ℕ) (x : List ℂ) : List ℂ := (List.range (x.length / s)).map fun m => x.getD (m * s) 0

theorem fit_getD (total : ℕ) (signal : List ℂ) (i : ℕ) (hi : i < total) : (fit total signal).getD i 0 = signal.getD i 0 := by
  unfold fit
  split
  · rw [List.getD_eq_getElem?_getD, List.getD_eq_getElem?_getD, List.getElem?_take_of_lt hi]
  · rcases Nat.lt_or_ge i signal.length with h | h
    · rw [List.getD_eq_getElem?_getD, List.getD_eq_getElem?_getD, List.getElem?_append_left h]
    · rw [List.getD_eq_getElem?_getD, List.getD_eq_getElem?_getD, List.getElem?_append_right h, List.getElem?_replicate,
        List.getElem?_eq_none h]
      split <;> rfl

theorem mixAll_ok (proto : List ℂ) (rows : List (List ℂ)) (h : ∀ row ∈ rows, proto.length ≤ row.length) :
    mixAll proto rows = .ok (rows.map fun row => List.zipWith (fun a b => (starRingEnd ℂ) a * b) (row.take proto.length) proto) := by
  induction rows with
  | nil => rfl
  | cons row rows ih =>
    have h1 : mix proto row = .ok (List.zipWith (fun a b => (starRingEnd ℂ) a * b) (row.take proto.length) proto) := by
      unfold mix
      have := h row (by simp)
      simp only
      rw [if_pos (by rw [List.length_take]; omega)]
    simp only [mixAll, h1, ih fun r hr => h r (by simp [hr]), List.map_cons]

theorem sample_nat (w : Fmcw) (B : ℝ) (hB : 0 < B) (os n i : ℕ) (hos : 0 < os) (hn : 0 < n) (h : w.duration * B = n) :
    w.sample B os i = exp (((Real.pi * (-((i : ℝ) / os) + (i : ℝ) ^ 2 / (n * os ^ 2)) : ℝ) : ℂ) * I) := by
  unfold Fmcw.sample
  have hos' : (os : ℝ) ≠ 0 := by positivity
  have hn' : (n : ℝ) ≠ 0 := by positivity
  have hd : w.duration = n / B := by field_simp; linarith
  simp only
  congr 3
  rw [hd]
  field_simp

/-- The product of the chirp with a delayed copy is a tone. -/
theorem beat (w : Fmcw) (B : ℝ) (hB : 0 < B) (os n k u m : ℕ) (hos : 0 < os) (hn : 0 < n) (h : w.duration * B = n)
    (hk : k ≤ m * u) :
    (starRingEnd ℂ) (w.sample B os (m * (u * os) - k * os)) * w.sample B os (m * (u * os)) =
      exp (((Real.pi * (-(k : ℝ) - (k : ℝ) ^ 2 / n) : ℝ) : ℂ) * I) * exp (2 * Real.pi * I * (m * (u * k) : ℕ) / n) := by
  rw [sample_nat w B hB os n _ hos hn h, sample_nat w B hB os n _ hos hn h, ← Complex.exp_conj, ← Complex.exp_add,
    ← Complex.exp_add]
  have hle : k * os ≤ m * (u * os) := by
    rw [← mul_assoc]
    exact Nat.mul_le_mul_right _ hk
  have hos' : (os : ℂ) ≠ 0 := by exact_mod_cast hos.ne'
  have hn' : (n : ℂ) ≠ 0 := by exact_mod_cast hn.ne'
  congr 1
  rw [map_mul, Complex.conj_ofReal, Complex.conj_I]
  push_cast [Nat.cast_sub hle]
  field_simp
  ring

/-- The sum of a tone over the samples after an echo has set in. -/
noncomputable def tone (n v u k j : ℕ) : ℂ :=
  ∑ m ∈ Finset.range n, if m < v ∧ k ≤ m * u then exp (2 * Real.pi * I * (m : ℂ) * (((u * k : ℕ) : ℂ) - j) / n) else 0

theorem exp_turn_iff (n : ℕ) (hn : 0 < n) (d : ℤ) : exp (2 * Real.pi * I * d / n) = 1 ↔ (n : ℤ) ∣ d := by
  have hn' : (n : ℂ) ≠ 0 := by exact_mod_cast hn.ne'
  rw [Complex.exp_eq_one_iff]
  have h2 : (2 * Real.pi * I : ℂ) ≠ 0 := Complex.two_pi_I_ne_zero
  constructor
  · rintro ⟨c, hc⟩
    refine ⟨c, ?_⟩
    have : (d : ℂ) = n * c := by
      field_simp at hc
      have h3 : (2 * Real.pi * I : ℂ) * (d - n * c) = 0 := by linear_combination (2 * Real.pi * I : ℂ) * hc
      rcases mul_eq_zero.mp h3 with h | h
      · exact absurd h h2
      · linear_combination h
    exact_mod_cast this
  · rintro ⟨c, rfl⟩
    refine ⟨c, ?_⟩
    push_cast
    field_simp

theorem tone_eq (n v u k j : ℕ) (hvn : v ≤ n) (c : ℕ) (hc : ∀ m, k ≤ m * u ↔ c ≤ m) :
    tone n v u k j = ∑ t ∈ Finset.range (v - c), exp (2 * Real.pi * I * (((c + t : ℕ)) : ℂ) * (((u * k : ℕ) : ℂ) - j) / n) := by
  unfold tone
  rw [← Finset.sum_filter, ← Finset.sum_Ico_eq_sum_range
    (fun m : ℕ => exp (2 * Real.pi * I * (m : ℂ) * (((u * k : ℕ) : ℂ) - j) / n))]
  congr 1
  ext m
  simp only [Finset.mem_filter, Finset.mem_range, Finset.mem_Ico, hc]
  omega

theorem tone_norm (n v u k : ℕ) (hn : 0 < n) (hu : 0 < u) (hvn : v ≤ n) (hk : k + 2 * u ≤ v * u) :
    ∃ N : ℕ, 2 ≤ N ∧ ∀ j : ℕ, ((n : ℤ) ∣ ((u * k : ℕ) : ℤ) - j → ‖tone n v u k j‖ = N) ∧
      (¬ (n : ℤ) ∣ ((u * k : ℕ) : ℤ) - j → ‖tone n v u k j‖ < N) := by
  obtain ⟨c, hc, hcv⟩ : ∃ c, (∀ m, k ≤ m * u ↔ c ≤ m) ∧ c + 2 ≤ v := by
    refine ⟨(k + u - 1) / u, fun m => ?_, ?_⟩
    · rw [Nat.div_le_iff_le_mul hu]
      omega
    · have h1 : (k + u - 1) / u * u ≤ k + u - 1 := Nat.div_mul_le_self _ _
      by_contra hcon
      have h2 : v * u < ((k + u - 1) / u + 2) * u := Nat.mul_lt_mul_of_pos_right (by omega) hu
      have h3 : ((k + u - 1) / u + 1) * u ≤ k + u - 1 + u := by
        rw [Nat.add_mul]
        omega
      have h4 : v ≤ (k + u - 1) / u + 1 := by omega
      have h5 : v * u ≤ ((k + u - 1) / u + 1) * u := Nat.mul_le_mul_right _ h4
      omega
  have hfac : ∀ j : ℕ, ‖tone n v u k j‖ =
      ‖∑ t ∈ Finset.range (v - c), exp (2 * Real.pi * I * ((((u * k : ℕ) : ℤ) - (j : ℤ) : ℤ) : ℂ) / n) ^ t‖ := by
    intro j
    rw [tone_eq n v u k j hvn c hc]
    have : ∀ t ∈ Finset.range (v - c), exp (2 * Real.pi * I * (((c + t : ℕ)) : ℂ) * (((u * k : ℕ) : ℂ) - j) / n) =
        exp (((2 * Real.pi * (c * (((u * k : ℕ) : ℝ) - j) / n) : ℝ) : ℂ) * I) *
          exp (2 * Real.pi * I * ((((u * k : ℕ) : ℤ) - (j : ℤ) : ℤ) : ℂ) / n) ^ t := by
      intro t _
      rw [← Complex.exp_nat_mul, ← Complex.exp_add]
      congr 1
      push_cast
      ring
    rw [Finset.sum_congr rfl this, ← Finset.mul_sum, norm_mul, Complex.norm_exp_ofReal_mul_I, one_mul]
  refine ⟨v - c, by omega, fun j => ⟨fun h => ?_, fun h => ?_⟩⟩
  · rw [hfac, (exp_turn_iff n hn _).mpr h]
    simp
  · rw [hfac]
    set z := exp (2 * Real.pi * I * ((((u * k : ℕ) : ℤ) - (j : ℤ) : ℤ) : ℂ) / n) with hz
    have hz1 : z ≠ 1 := fun h1 => h ((exp_turn_iff n hn _).mp h1)
    have hzn : ‖z‖ = 1 := by
      have : z = exp (((2 * Real.pi * ((((u * k : ℕ) : ℤ) - (j : ℤ) : ℤ) : ℝ) / n : ℝ) : ℂ) * I) := by
        rw [hz]
        congr 1
        push_cast
        ring
      rw [this, Complex.norm_exp_ofReal_mul_I]
    exact Verif.ChirpFsk.norm_sum_lt (fun t => z ^ t) (v - c) 1 (fun t => by simp [hzn]) (by simp) (by omega) (by simpa using hz1)

theorem turns_sum (c : ℕ) (hc : 0 < c) (d : ℤ) :
    ∑ r ∈ Finset.range c, exp (2 * Real.pi * I * d / c) ^ r = if (c : ℤ) ∣ d then (c : ℂ) else 0 := by
  have hc' : (c : ℂ) ≠ 0 := by exact_mod_cast hc.ne'
  split
  · rename_i h
    rw [(exp_turn_iff c hc d).mpr h]
    simp
  · rename_i h
    have h1 : exp (2 * Real.pi * I * d / c) ≠ 1 := fun h1 => h ((exp_turn_iff c hc d).mp h1)
    rw [geom_sum_eq h1, ← Complex.exp_nat_mul]
    have : (c : ℂ) * (2 * Real.pi * I * d / c) = d * (2 * Real.pi * I) := by
      field_simp
    rw [this, Complex.exp_int_mul_two_pi_mul_I, sub_self, zero_div]

theorem maxRange_bins (w : Fmcw) (B : ℝ) (hB : 0 < B) (n : ℕ) (hT : w.duration * B = n) (a : ℝ) (ha : a = if 0 < w.adc then w.adc else B) :
    w.maxRange a = light * w.duration / 2 ∧ truncInt (w.maxRange a / rangeResolution B) = n := by
  have hl := light_pos
  have ha0 : 0 < a := by
    rw [ha]
    split
    · assumption
    · exact hB
  have hm : w.maxRange a = light * w.duration / 2 := by
    unfold Fmcw.maxRange
    have h1 : (if 0 < w.adc then w.adc else a) = a := by
      split
      · rename_i h
        rw [ha, if_pos h]
      · rfl
    rw [h1]
    field_simp
  refine ⟨hm, truncInt_eq_nat ?_⟩
  rw [hm, rangeResolution, ← hT]
  field_simp

/-- What is received, mixed and sampled from an echo. -/
theorem sampled_row (w : Fmcw) (B : ℝ) (hB : 0 < B) (os u v n p k : ℕ) (hos : 0 < os) (hu : 0 < u) (hn0 : 0 < n) (hn : n = v * u)
    (hT : w.duration * B = n) (hguard : k * os + n * os ≤ p) (g : ℂ) (row : List ℂ) (hl : row.length = p)
    (hr : ∀ i < p, row.getD i 0 = g * if k * os ≤ i ∧ i < k * os + n * os then w.sample B os (i - k * os) else 0) (m : ℕ) :
    (ideal (u * os) (List.zipWith (fun a b => (starRingEnd ℂ) a * b) (row.take (w.chirp B os).length) (w.chirp B os))).getD m 0 =
      if m < v ∧ k ≤ m * u then (starRingEnd ℂ) g * (exp (((Real.pi * (-(k : ℝ) - (k : ℝ) ^ 2 / n) : ℝ) : ℂ) * I) *
        exp (2 * Real.pi * I * (m * (u * k) : ℕ) / n)) else 0 := by
  have hcl : (w.chirp B os).length = n * os := by rw [chirp_length, numSamples_nat w B os n hT]
  have hzl : (List.zipWith (fun a b => (starRingEnd ℂ) a * b) (row.take (w.chirp B os).length) (w.chirp B os)).length = n * os := by
    rw [List.length_zipWith, List.length_take, hcl, hl]
    omega
  have hdiv : n * os / (u * os) = v := by
    rw [hn, Nat.mul_div_mul_right _ _ hos, Nat.mul_div_cancel _ hu]
  unfold ideal
  rw [hzl, hdiv, List.getD_eq_getElem?_getD, List.getElem?_map]
  rcases Nat.lt_or_ge m v with hm | hm
  · rw [List.getElem?_range hm]
    simp only [Option.map_some, Option.getD_some, hm, true_and]
    have hmu : m * (u * os) < n * os := by
      rw [hn, ← mul_assoc]
      exact Nat.mul_lt_mul_of_pos_right (Nat.mul_lt_mul_of_pos_right hm hu) hos
    have hget : (List.zipWith (fun a b => (starRingEnd ℂ) a * b) (row.take (w.chirp B os).length) (w.chirp B os)).getD
        (m * (u * os)) 0 = (starRingEnd ℂ) (row.getD (m * (u * os)) 0) * w.sample B os (m * (u * os)) := by
      rw [List.getD_eq_getElem?_getD, List.getElem?_zipWith, List.getElem?_take_of_lt (by omega),
        List.getElem?_eq_getElem (by omega : m * (u * os) < row.length), Fmcw.chirp, List.getElem?_map,
        List.getElem?_range (by rw [← chirp_length, hcl]; exact hmu), List.getD_eq_getElem?_getD,
        List.getElem?_eq_getElem (by omega : m * (u * os) < row.length)]
      rfl
    rw [hget, hr _ (by omega)]
    have hiff : (k * os ≤ m * (u * os) ∧ m * (u * os) < k * os + n * os) ↔ k ≤ m * u := by
      constructor
      · rintro ⟨h1, -⟩
        rw [← mul_assoc] at h1
        exact Nat.le_of_mul_le_mul_right h1 hos
      · intro h1
        refine ⟨?_, by omega⟩
        rw [← mul_assoc]
        exact Nat.mul_le_mul_right _ h1
    by_cases hk : k ≤ m * u
    · rw [if_pos (hiff.mpr hk), if_pos hk, map_mul, mul_assoc, beat w B hB os n k u m hos hn0 hT hk]
    · rw [if_neg (fun h => hk (hiff.mp h)), if_neg hk, mul_zero, map_zero, zero_mul]
  · rw [List.getElem?_eq_none (by simpa using hm), if_neg (by omega)]
    rfl

/-- C93, targets: an echo of a frame, delayed by `k` samples of the bandwidth and turned by the same phase from pulse to
pulse, is the only maximum of the estimate, at the range bin of its beat frequency and the Doppler bin of its rotation.
Chirps and intervals last whole samples, echoes end before the next pulse, and samplers are ideal.  Rates of analog to
digital conversion are derived or a fraction of the bandwidth. -/
theorem C93_target_partial (w : Fmcw) (B : ℝ) (hB : 0 < B) (os u v n p k : ℕ) (hos : 0 < os) (hu : 0 < u) (hn : n = v * u)
    (hT : w.duration * B = n) (hP : w.interval * (B * os) = p) (hadc : (u = 1 ∧ w.adc = 0) ∨ (2 ≤ u ∧ w.adc = B / u))
    (hc : 0 < w.chirps) (resample : ℝ → List ℂ → List ℂ) (decimate : ℕ → List ℂ → List ℂ)
    (hres : ∀ x, resample (w.adc / (B * os)) x = ideal (u * os) x) (hdec : ∀ x, decimate os x = ideal os x)
    (hguard : k * os + n * os ≤ p) (hk : k + 2 * u ≤ n) (A : ℂ) (hA : A ≠ 0) (μ : ℤ) (signal : List ℂ)
    (hs : ∀ r < w.chirps, ∀ i < p, signal.getD (r * p + i) 0 = A * exp (2 * Real.pi * I * μ / w.chirps) ^ r *
      if k * os ≤ i ∧ i < k * os + n * os then w.sample B os (i - k * os) else 0) :
    ∃ e, w.estimate resample decimate signal B os = .ok e ∧ e.rows = w.chirps ∧ e.cols = n ∧
      ∀ ρ < w.chirps, (w.chirps : ℤ) ∣ ((ρ + w.chirps / 2 : ℕ) : ℤ) + μ → ∀ i < w.chirps, ∀ j < n,
        (i, j) ≠ (ρ, u * k % n) → e.power i j < e.power ρ (u * k % n) := by
  have hn0 : 0 < n := by omega
  have hpt : truncInt (w.interval * (B * os)) = p := truncInt_eq_nat hP
  have hnp : 0 < n * os := Nat.mul_pos hn0 hos
  have hcl : (w.chirp B os).length = n * os := by rw [chirp_length, numSamples_nat w B os n hT]
  set stack := (List.range w.chirps).map fun r => (List.range p).map fun i => (fit (w.chirps * p) signal).getD (r * p + i) 0
    with hstack
  set mixed := stack.map fun row => List.zipWith (fun a b => (starRingEnd ℂ) a * b) (row.take (w.chirp B os).length) (w.chirp B os)
    with hmixed
  have hmix : mixAll (w.chirp B os) stack = .ok mixed := by
    refine mixAll_ok _ _ fun row hrow => ?_
    simp only [hstack, List.mem_map] at hrow
    obtain ⟨r, -, rfl⟩ := hrow
    rw [List.length_map, List.length_range, hcl]
    omega
  set sampled := mixed.map (ideal (u * os)) with hsampled
  have hbr : (if 0 < w.adc ∧ w.adc < B * os then mixed.map (resample (w.adc / (B * os))) else mixed.map (decimate os)) = sampled := by
    rcases hadc with ⟨rfl, h0⟩ | ⟨h2, h0⟩
    · rw [if_neg (by rw [h0]; simp), hsampled, one_mul]
      exact List.map_congr_left fun x _ => hdec x
    · rw [if_pos, hsampled]
      · exact List.map_congr_left fun x _ => hres x
      · have h3 : (2 : ℝ) ≤ u := by exact_mod_cast h2
        have h4 : (1 : ℝ) ≤ os := by exact_mod_cast hos
        rw [h0]
        refine ⟨by positivity, ?_⟩
        rw [div_lt_iff₀ (by positivity)]
        nlinarith [mul_le_mul h4 h3 (by norm_num) (by positivity)]
  have hab : (if 0 < w.adc ∧ w.adc < B * os then w.adc else B) = if 0 < w.adc then w.adc else B := by
    rcases hadc with ⟨rfl, h0⟩ | ⟨h2, h0⟩
    · rw [h0]
      simp
    · have h3 : (2 : ℝ) ≤ u := by exact_mod_cast h2
      have h4 : (1 : ℝ) ≤ os := by exact_mod_cast hos
      have h5 : 0 < w.adc := by rw [h0]; positivity
      rw [if_pos h5, if_pos]
      refine ⟨h5, ?_⟩
      rw [h0, div_lt_iff₀ (by positivity)]
      nlinarith [mul_le_mul h4 h3 (by norm_num) (by positivity)]
  have hbins := (maxRange_bins w B hB n hT _ hab).2
  have hrow : ∀ r < w.chirps, ∀ m, (sampled.getD r []).getD m 0 = if m < v ∧ k ≤ m * u then
      (starRingEnd ℂ) (A * exp (2 * Real.pi * I * μ / w.chirps) ^ r) *
        (exp (((Real.pi * (-(k : ℝ) - (k : ℝ) ^ 2 / n) : ℝ) : ℂ) * I) * exp (2 * Real.pi * I * (m * (u * k) : ℕ) / n)) else 0 := by
    intro r hr m
    have hget : sampled.getD r [] = ideal (u * os) (List.zipWith (fun a b => (starRingEnd ℂ) a * b)
        (((List.range p).map fun i => (fit (w.chirps * p) signal).getD (r * p + i) 0).take (w.chirp B os).length) (w.chirp B os)) := by
      rw [List.getD_eq_getElem?_getD, hsampled, hmixed, hstack, List.getElem?_map, List.getElem?_map, List.getElem?_map,
        List.getElem?_range hr]
      rfl
    rw [hget]
    refine sampled_row w B hB os u v n p k hos hu hn0 hn hT hguard _ _ (by simp) (fun i hi => ?_) m
    have hlt : r * p + i < w.chirps * p := by
      have : (r + 1) * p ≤ w.chirps * p := Nat.mul_le_mul_right _ hr
      rw [Nat.add_mul] at this
      omega
    rw [List.getD_eq_getElem?_getD, List.getElem?_map, List.getElem?_range hi]
    simp only [Option.map_some, Option.getD_some]
    rw [fit_getD _ _ _ hlt, hs r hr i hi]
  have hw : ‖exp (((Real.pi * (-(k : ℝ) - (k : ℝ) ^ 2 / n) : ℝ) : ℂ) * I)‖ = 1 := Complex.norm_exp_ofReal_mul_I _
  have hfft : ∀ ρ κ : ℕ, fft2 sampled w.chirps n ρ κ = (starRingEnd ℂ) A * exp (((Real.pi * (-(k : ℝ) - (k : ℝ) ^ 2 / n) : ℝ) : ℂ) * I) *
      ((∑ r ∈ Finset.range w.chirps, exp (2 * Real.pi * I * ((-((ρ : ℤ) + μ) : ℤ) : ℂ) / w.chirps) ^ r) * tone n v u k κ) := by
    intro ρ κ
    unfold fft2 tone
    rw [Finset.sum_mul_sum, Finset.mul_sum]
    refine Finset.sum_congr rfl fun r hr => ?_
    rw [Finset.mem_range] at hr
    rw [Finset.mul_sum]
    refine Finset.sum_congr rfl fun m _ => ?_
    rw [hrow r hr m]
    split
    · rw [map_mul, map_pow, ← Complex.exp_conj, ← Complex.exp_nat_mul, ← Complex.exp_nat_mul]
      have e1 : (starRingEnd ℂ) (2 * Real.pi * I * μ / w.chirps) = -(2 * Real.pi * I * μ / w.chirps) := by
        simp only [map_div₀, map_mul, Complex.conj_I, Complex.conj_ofReal, map_natCast, map_intCast, map_ofNat]
        ring
      rw [e1]
      have e2 : ∀ a b c d e f : ℂ, a * exp b * (c * exp d) * exp e = a * c * exp (b + d + e) := by
        intro a b c d e f
        rw [Complex.exp_add, Complex.exp_add]
        ring
      rw [e2 _ _ _ _ _ 0, ← Complex.exp_add]
      congr 2
      push_cast
      ring
    · simp
  obtain ⟨N, hN2, hN⟩ := tone_norm n v u k hn0 hu (by rw [hn]; exact Nat.le_mul_of_pos_right _ hu) (by omega)
  have hnorm : ∀ ρ κ : ℕ, ‖fft2 sampled w.chirps n ρ κ‖ =
      if (w.chirps : ℤ) ∣ (ρ : ℤ) + μ then ‖A‖ * w.chirps * ‖tone n v u k κ‖ else 0 := by
    intro ρ κ
    rw [hfft, turns_sum _ hc]
    simp only [dvd_neg]
    split
    · rw [norm_mul, norm_mul, norm_mul, hw, RCLike.norm_conj, Complex.norm_natCast]
      ring
    · simp
  refine ⟨⟨w.chirps, n, fun i k => ‖fft2 sampled w.chirps n ((i + w.chirps / 2) % w.chirps) k‖ ^ 2⟩, ?_, rfl, rfl, ?_⟩
  · unfold Fmcw.estimate
    simp only [hpt, Int.toNat_natCast]
    rw [if_neg (by omega), ← hstack, hmix]
    simp only [hbr, hbins, Int.toNat_natCast]
    rw [if_neg (by omega)]
  · intro ρ hρ hd i hi j hj hne
    have hmod : ∀ i : ℕ, (w.chirps : ℤ) ∣ (((i + w.chirps / 2) % w.chirps : ℕ) : ℤ) + μ ↔
        (w.chirps : ℤ) ∣ ((i + w.chirps / 2 : ℕ) : ℤ) + μ := by
      intro i
      have : ((i + w.chirps / 2 : ℕ) : ℤ) = (((i + w.chirps / 2) % w.chirps : ℕ) : ℤ) + w.chirps * ((i + w.chirps / 2) / w.chirps : ℕ) := by
        exact_mod_cast (Nat.mod_add_div _ _).symm
      rw [this, add_right_comm]
      exact (dvd_add_left (dvd_mul_right _ _)).symm
    have hpeak : (n : ℤ) ∣ ((u * k : ℕ) : ℤ) - ((u * k % n : ℕ) : ℤ) := by
      refine ⟨((u * k / n : ℕ) : ℤ), ?_⟩
      have h : ((n * (u * k / n) + u * k % n : ℕ) : ℤ) = ((u * k : ℕ) : ℤ) := by rw [Nat.div_add_mod]
      rw [Nat.cast_add, Nat.cast_mul n] at h
      linarith
    have hA' : 0 < ‖A‖ * w.chirps := mul_pos (norm_pos_iff.mpr hA) (by exact_mod_cast hc)
    have hN' : (0 : ℝ) < N := by exact_mod_cast (by omega : 0 < N)
    simp only
    refine pow_lt_pow_left₀ ?_ (norm_nonneg _) two_ne_zero
    rw [hnorm, hnorm, if_pos ((hmod ρ).mpr hd), (hN _).1 hpeak]
    split
    · rename_i hdi
      rw [hmod] at hdi
      have hir : i = ρ := by
        have h1 : (w.chirps : ℤ) ∣ (i : ℤ) - ρ := by
          have := dvd_sub hdi hd
          push_cast at this
          have e : (i : ℤ) + (w.chirps / 2 : ℕ) + μ - ((ρ : ℤ) + (w.chirps / 2 : ℕ) + μ) = (i : ℤ) - ρ := by ring
          push_cast at e
          rwa [e] at this
        have := Int.eq_zero_of_abs_lt_dvd h1 (by rw [abs_lt]; constructor <;> omega)
        omega
      have hjk : j ≠ u * k % n := by
        rintro rfl
        exact hne (by rw [hir])
      refine mul_lt_mul_of_pos_left ((hN j).2 fun h => hjk ?_) hA'
      have h1 := dvd_sub hpeak h
      have e : ((u * k : ℕ) : ℤ) - ((u * k % n : ℕ) : ℤ) - (((u * k : ℕ) : ℤ) - j) = (j : ℤ) - ((u * k % n : ℕ) : ℤ) := by ring
      rw [e] at h1
      have h2 := Nat.mod_lt (u * k) hn0
      have := Int.eq_zero_of_abs_lt_dvd h1 (by rw [abs_lt]; constructor <;> omega)
      omega
    · exact mul_pos hA' hN'

/-! ### Labels -/

theorem rangeBins_value (w : Fmcw) (B : ℝ) (hB : 0 < B) (n : ℕ) (hT : w.duration * B = n) :
    w.rangeBins B = .ok ((List.range n).map fun (k : ℕ) => (k : ℝ) * (light * w.duration / 2) / ((n : ℝ) - 1)) := by
  have ha : (if w.adc ≤ 0 then B else w.adc) = if 0 < w.adc then w.adc else B := by
    by_cases h : 0 < w.adc
    · rw [if_pos h, if_neg (not_le.mpr h)]
    · rw [if_neg h, if_pos (not_lt.mp h)]
  obtain ⟨h1, h2⟩ := maxRange_bins w B hB n hT _ ha
  unfold Fmcw.rangeBins
  rw [h1] at h2
  simp only [h1, h2]
  rw [if_neg (by omega)]
  simp

/-- C93, ranges: range bins lie apart by `n / (n - 1)` times the resolution.  The bin of an echo delayed by `k` samples of
the bandwidth, which is one from a distance of `k` times the resolution, is labelled with a larger range; if the rate of
analog to digital conversion is the `u`-th part of the bandwidth, more than `u` times as large. -/
theorem C93_range_fails (w : Fmcw) (B : ℝ) (hB : 0 < B) (u n k : ℕ) (hu : 0 < u) (hT : w.duration * B = n) (hk0 : 0 < k)
    (hk : u * k < n) (h2 : 2 ≤ n) :
    ∃ bins label, w.rangeBins B = .ok bins ∧ bins[u * k % n]? = some label ∧
      label = u * (n / (n - 1)) * (k * rangeResolution B) ∧ light * (k / B) / 2 = k * rangeResolution B ∧
      k * rangeResolution B < label := by
  have hl := light_pos
  have hn1 : (0 : ℝ) < n - 1 := by
    have : (2 : ℝ) ≤ n := by exact_mod_cast h2
    linarith
  have hu1 : (1 : ℝ) ≤ u := by exact_mod_cast hu
  have hk1 : (0 : ℝ) < k := by exact_mod_cast hk0
  have hr : 0 < rangeResolution B := by
    unfold rangeResolution
    positivity
  have hd : w.duration = n / B := by
    field_simp
    linarith
  refine ⟨_, u * (n / (n - 1)) * (k * rangeResolution B), rangeBins_value w B hB n hT, ?_, rfl, ?_, ?_⟩
  · rw [Nat.mod_eq_of_lt hk, List.getElem?_map, List.getElem?_range hk]
    simp only [Option.map_some, Option.some.injEq]
    rw [hd, rangeResolution]
    push_cast
    field_simp
  · rw [rangeResolution]
    field_simp
  · have h3 : 1 < (n : ℝ) / (n - 1) := by
      rw [lt_div_iff₀ hn1]
      linarith
    have h4 : 1 < u * ((n : ℝ) / (n - 1)) := by nlinarith
    have h5 : 0 < k * rangeResolution B := by positivity
    nlinarith

/-- C93, ranges: the largest range bin is not the maximum range, unless the rate of analog to digital conversion is the
bandwidth. -/
theorem C93_max_range_fails (w : Fmcw) (B : ℝ) (hB : 0 < B) (n : ℕ) (hT : w.duration * B = n) (h2 : 2 ≤ n) (ha : 0 < w.adc)
    (hne : w.adc ≠ B) :
    ∃ bins last, w.rangeBins B = .ok bins ∧ bins.getLast? = some last ∧ w.maxRange B = w.adc / B * last ∧
      w.maxRange B ≠ last := by
  have hl := light_pos
  have hn : (0 : ℝ) < n := by
    have : 0 < n := by omega
    exact_mod_cast this
  have hn1 : (n : ℝ) - 1 ≠ 0 := by
    have : (2 : ℝ) ≤ n := by exact_mod_cast h2
    linarith
  have hd : 0 < w.duration := by
    rw [← hT] at hn
    exact pos_of_mul_pos_left hn hB.le
  have hm : w.maxRange B = w.adc / B * (light * w.duration / 2) := by
    unfold Fmcw.maxRange
    rw [if_pos ha]
    field_simp
  refine ⟨_, light * w.duration / 2, rangeBins_value w B hB n hT, ?_, hm, ?_⟩
  · obtain ⟨m, rfl⟩ : ∃ m, n = m + 1 := ⟨n - 1, by omega⟩
    rw [List.range_succ, List.map_append, List.map_singleton, List.getLast?_concat]
    congr 1
    push_cast at hn1 ⊢
    rw [add_sub_cancel_right] at hn1 ⊢
    field_simp
  · rw [hm]
    intro h
    have h3 : 0 < light * w.duration / 2 := by positivity
    have h4 : w.adc / B = 1 := mul_right_cancel₀ h3.ne' (by rw [h, one_mul])
    rw [div_eq_one_iff_eq hB.ne'] at h4
    exact hne h4

/-- C93, ranges: with a rate of analog to digital conversion of `z` times the bandwidth, not less than the sampling rate,
estimates have `z` times as many range bins as there are labels. -/
theorem C93_fast_fails (w : Fmcw) (B : ℝ) (hB : 0 < B) (os n z : ℕ) (hos : 0 < os) (hz : os ≤ z) (hT : w.duration * B = n)
    (ha : w.adc = z * B) (resample : ℝ → List ℂ → List ℂ) (decimate : ℕ → List ℂ → List ℂ) (signal : List ℂ) (e : Estimate)
    (he : w.estimate resample decimate signal B os = .ok e) :
    ∃ bins, w.rangeBins B = .ok bins ∧ bins.length = n ∧ e.cols = z * n := by
  have hl := light_pos
  refine ⟨_, rangeBins_value w B hB n hT, by simp, ?_⟩
  have hz1 : (os : ℝ) ≤ z := by exact_mod_cast hz
  have hz0 : (0 : ℝ) < z := by
    have : 0 < z := by omega
    exact_mod_cast this
  have hc : ¬ (0 < w.adc ∧ w.adc < B * os) := by
    rw [ha]
    rintro ⟨-, h⟩
    nlinarith
  have hm : truncInt (w.maxRange B / rangeResolution B) = ((z * n : ℕ) : ℤ) := by
    refine truncInt_eq_nat ?_
    unfold Fmcw.maxRange rangeResolution
    rw [if_pos (by rw [ha]; positivity), ha]
    push_cast
    rw [← hT]
    field_simp
  unfold Fmcw.estimate at he
  simp only [if_neg hc, hm] at he
  split at he
  · simp at he
  · split at he
    · simp at he
    · split at he
      · simp at he
      · simp only [Except.ok.injEq] at he
        rw [← he]
        simp only [Int.toNat_natCast]

theorem dopplerBins_get (w : Fmcw) (hi : 0 < w.interval) (ρ : ℕ) (hρ : ρ < w.chirps) :
    w.dopplerBins[ρ]? = some (((ρ : ℝ) - w.chirps / 2) * w.dopplerResolution) := by
  have hc : (w.chirps : ℝ) ≠ 0 := by
    have : w.chirps ≠ 0 := by omega
    exact_mod_cast this
  unfold Fmcw.dopplerBins
  rw [List.getElem?_map, List.getElem?_range hρ]
  simp only [Option.map_some, Option.some.injEq]
  unfold Fmcw.dopplerResolution Fmcw.maxDoppler Fmcw.frameDuration
  field_simp
  ring

/-- C93, stationary targets: with an even number of chirps, they appear in the bin labelled zero. -/
theorem C93_stationary_partial (w : Fmcw) (hi : 0 < w.interval) (hc : 0 < w.chirps) (he : w.chirps % 2 = 0) :
    ∃ ρ < w.chirps, (w.chirps : ℤ) ∣ ((ρ + w.chirps / 2 : ℕ) : ℤ) + 0 ∧ w.dopplerBins[ρ]? = some 0 := by
  refine ⟨w.chirps / 2, by omega, ⟨1, by omega⟩, ?_⟩
  rw [dopplerBins_get w hi _ (by omega)]
  have : ((w.chirps / 2 : ℕ) : ℝ) = w.chirps / 2 := by
    rw [Nat.cast_div (by omega) (by norm_num)]
    norm_num
  rw [this, sub_self, zero_mul]

/-- C93, stationary targets: with an odd number of chirps, they appear in a bin labelled with half the resolution. -/
theorem C93_odd_fails (w : Fmcw) (hi : 0 < w.interval) (he : w.chirps % 2 = 1) (ρ : ℕ) (hρ : ρ < w.chirps)
    (hd : (w.chirps : ℤ) ∣ ((ρ + w.chirps / 2 : ℕ) : ℤ) + 0) :
    ∃ label, w.dopplerBins[ρ]? = some label ∧ |label| = w.dopplerResolution / 2 ∧ label ≠ 0 := by
  have hres : 0 < w.dopplerResolution := by
    have : (0 : ℝ) < w.chirps := by
      have : 0 < w.chirps := by omega
      exact_mod_cast this
    unfold Fmcw.dopplerResolution Fmcw.frameDuration
    positivity
  have hval : (ρ : ℝ) - w.chirps / 2 = 1 / 2 ∨ (ρ : ℝ) - w.chirps / 2 = -(1 / 2) := by
    rw [add_zero] at hd
    have hd' : w.chirps ∣ ρ + w.chirps / 2 := by exact_mod_cast hd
    obtain ⟨q, hq⟩ := hd'
    have hq2 : q < 2 := by
      by_contra h
      have : w.chirps * 2 ≤ w.chirps * q := Nat.mul_le_mul_left _ (by omega)
      omega
    interval_cases q
    · right
      have h1 : ρ = 0 ∧ w.chirps = 1 := by omega
      rw [h1.1, h1.2]
      norm_num
    · left
      have h1 : 2 * ρ = w.chirps + 1 := by omega
      have h2 : (2 : ℝ) * ρ = w.chirps + 1 := by exact_mod_cast h1
      linarith
  refine ⟨_, dopplerBins_get w hi ρ hρ, ?_, ?_⟩
  · rcases hval with h | h <;> rw [h, abs_mul, abs_of_pos hres] <;> norm_num <;> ring
  · rcases hval with h | h <;> rw [h] <;> intro h0 <;> nlinarith

/-- C93, velocities: the echo of a target moving away at a velocity `vel`, turned from pulse to pulse as the channel does,
is the only maximum of the estimate, in a bin labelled with the velocity `-vel`.  Detections move at the velocity of the bin
in the direction of the target. -/
theorem C93_velocity_fails (w : Fmcw) (B : ℝ) (hB : 0 < B) (os u v n p k : ℕ) (hos : 0 < os) (hu : 0 < u) (hn : n = v * u)
    (hT : w.duration * B = n) (hP : w.interval * (B * os) = p) (hadc : (u = 1 ∧ w.adc = 0) ∨ (2 ≤ u ∧ w.adc = B / u))
    (he : w.chirps % 2 = 0) (resample : ℝ → List ℂ → List ℂ) (decimate : ℕ → List ℂ → List ℂ)
    (hres : ∀ x, resample (w.adc / (B * os)) x = ideal (u * os) x) (hdec : ∀ x, decimate os x = ideal os x)
    (hguard : k * os + n * os ≤ p) (hk : k + 2 * u ≤ n) (A : ℂ) (hA : A ≠ 0) (fc vel : ℝ) (hfc : 0 < fc) (μ : ℤ)
    (hμ : vel = μ * w.dopplerResolution * light / fc) (hμ1 : 2 * |μ| < w.chirps) (signal : List ℂ)
    (hs : ∀ r < w.chirps, ∀ i < p, signal.getD (r * p + i) 0 =
      A * Verif.RadarChannel.weight (2 * vel) fc (B * os) 0 (r * p) *
        if k * os ≤ i ∧ i < k * os + n * os then w.sample B os (i - k * os) else 0) :
    ∃ e ρ label, w.estimate resample decimate signal B os = .ok e ∧ e.rows = w.chirps ∧ e.cols = n ∧ ρ < w.chirps ∧
      (∀ i < w.chirps, ∀ j < n, (i, j) ≠ (ρ, u * k % n) → e.power i j < e.power ρ (u * k % n)) ∧
      w.dopplerBins[ρ]? = some label ∧ label * light / fc = -vel := by
  have hl := light_pos
  have hc : 0 < w.chirps := by
    have := abs_nonneg μ
    omega
  have hc' : (w.chirps : ℝ) ≠ 0 := by exact_mod_cast hc.ne'
  have hos' : (0 : ℝ) < os := by exact_mod_cast hos
  have hpn : 0 < p := by
    have : 0 < n * os := Nat.mul_pos (by omega) hos
    omega
  have hi : 0 < w.interval := by
    have h1 : 0 < w.interval * (B * os) := by
      rw [hP]
      exact_mod_cast hpn
    exact pos_of_mul_pos_left h1 (by positivity)
  have hw : ∀ r : ℕ, Verif.RadarChannel.weight (2 * vel) fc (B * os) 0 (r * p) = exp (2 * Real.pi * I * μ / w.chirps) ^ r := by
    intro r
    unfold Verif.RadarChannel.weight
    rw [← Complex.exp_nat_mul]
    congr 1
    have : (2 * vel * fc / Verif.RadarChannel.light * (0 + ((r * p : ℕ) : ℝ) / (B * os)) : ℝ) = r * μ / w.chirps := by
      change 2 * vel * fc / light * (0 + ((r * p : ℕ) : ℝ) / (B * os)) = _
      rw [hμ]
      unfold Fmcw.dopplerResolution Fmcw.frameDuration
      push_cast
      rw [← hP]
      field_simp
      ring
    rw [this]
    push_cast
    ring
  obtain ⟨e, h1, h2, h3, h4⟩ := C93_target_partial w B hB os u v n p k hos hu hn hT hP hadc hc resample decimate hres hdec hguard
    hk A hA μ signal fun r hr i hi => by rw [hs r hr i hi, hw]
  have habs : -(w.chirps : ℤ) < 2 * μ ∧ 2 * μ < w.chirps := by
    have := le_abs_self μ
    have := neg_le_abs μ
    omega
  have hρ : ((((w.chirps / 2 : ℕ) : ℤ) - μ).toNat : ℤ) = ((w.chirps / 2 : ℕ) : ℤ) - μ := Int.toNat_of_nonneg (by omega)
  refine ⟨e, (((w.chirps / 2 : ℕ) : ℤ) - μ).toNat, _, h1, h2, h3, by omega, h4 _ (by omega) ?_, dopplerBins_get w hi _ (by omega), ?_⟩
  · refine ⟨1, ?_⟩
    rw [Nat.cast_add, hρ]
    omega
  · have h5 : (((((w.chirps / 2 : ℕ) : ℤ) - μ).toNat : ℕ) : ℝ) = (w.chirps : ℝ) / 2 - μ := by
      have h6 : (((((w.chirps / 2 : ℕ) : ℤ) - μ).toNat : ℤ) : ℝ) = ((((w.chirps / 2 : ℕ) : ℤ) - μ : ℤ) : ℝ) := by rw [hρ]
      rw [Int.cast_natCast] at h6
      rw [h6, Int.cast_sub, Int.cast_natCast, Nat.cast_div (by omega) (by norm_num)]
      norm_num
    rw [h5, hμ]
    ring

/-- C93, intervals: an interval shorter than the chirp by less than a sample is accepted, but frames cannot be estimated. -/
theorem C93_short_fails (w : Fmcw) (B : ℝ) (os a : ℕ) (hc : 0 < w.chirps) (ha : w.duration * (B * os) = a)
    (h3 : 3 ≤ a) (hi : w.interval * (B * os) < a) (hlt : (a : ℝ) - 1 < w.interval * (B * os))
    (resample : ℝ → List ℂ → List ℂ) (decimate : ℕ → List ℂ → List ℂ) :
    ∃ y, w.ping B os = .ok y ∧ ∀ signal, w.estimate resample decimate signal B os = .error .value := by
  have hx : (w.interval - w.duration) * B * os = w.interval * (B * os) - a := by
    rw [← ha]
    ring
  obtain ⟨y, p, hy, -⟩ := (C93_ping w B os).2 (by rw [hx]; linarith)
  refine ⟨y, hy, fun signal => ?_⟩
  have h3' : (3 : ℝ) ≤ a := by exact_mod_cast h3
  have hp : truncInt (w.interval * (B * os)) = ((a - 1 : ℕ) : ℤ) := by
    rw [truncInt_nonneg (by linarith), Int.floor_eq_iff]
    push_cast [Nat.cast_sub (show 1 ≤ a by omega)]
    constructor <;> linarith
  have hcl : (w.chirp B os).length = a := by
    rw [chirp_length, Fmcw.numSamples, truncInt_eq_nat ha, Int.toNat_natCast]
  unfold Fmcw.estimate
  simp only [hp, Int.toNat_natCast]
  rw [if_neg (by omega)]
  obtain ⟨c, hcc⟩ : ∃ c, w.chirps = c + 1 := ⟨w.chirps - 1, by omega⟩
  have hmix : ∀ (f : ℕ → List ℂ), (∀ r, (f r).length = a - 1) →
      mixAll (w.chirp B os) ((List.range w.chirps).map f) = .error .value := by
    intro f hf
    rw [hcc, List.range_succ_eq_map, List.map_cons]
    have : mix (w.chirp B os) (f 0) = .error .value := by
      unfold mix
      simp only
      rw [if_neg (by rw [List.length_take, hf, hcl]; omega), if_neg (by rw [List.length_take, hf, hcl]; omega)]
    simp only [mixAll, this]
  rw [hmix _ (fun r => by simp)]

/-- `serialize` and `Deserialize`, `radar/fmcw.py` 335-350: the stored values, passed to the constructor. -/
noncomputable def Fmcw.restore (w : Fmcw) : Except PyErr Fmcw := create w.chirps w.duration w.interval (some w.adc)

/-- C93, storage: restored waveforms equal the stored ones. -/
theorem C93_store (chirps : ℤ) (duration interval : ℝ) (adc : Option ℝ) (w : Fmcw)
    (h : create chirps duration interval adc = .ok w) : w.restore = .ok w := by
  obtain ⟨h1, h2, h3, h4⟩ := (C93_configuration chirps duration interval adc).1.mp ⟨w, h⟩
  obtain ⟨g1, g2, g3, g4, g5⟩ := (C93_configuration chirps duration interval adc).2 w h
  have h5 : ¬ w.adc < 0 := by
    rw [g5]
    cases adc with
    | none => simp
    | some a => simpa using h4 a rfl
  unfold Fmcw.restore create
  rw [if_neg (by omega), if_neg (by rw [g3]; linarith), if_neg (by rw [g4]; linarith), if_neg (by simpa using h5)]
  simp

/-! ### Examples -/

/-- Four chirps of ten samples at a bandwidth of ten and a guard interval of as many. -/
noncomputable def example1 : Fmcw := ⟨4, 1, 2, 0⟩

example : create 4 1 2 none = .ok example1 := by
  unfold create example1
  norm_num
  rfl
example : example1.duration * 10 = (10 : ℕ) := by norm_num [example1]
example : example1.interval * (10 * (2 : ℕ)) = (40 : ℕ) := by norm_num [example1]
example : (1 = 1 ∧ example1.adc = 0) ∨ (2 ≤ 1 ∧ example1.adc = 10 / (1 : ℕ)) := Or.inl ⟨rfl, rfl⟩
example : 3 * 2 + 10 * 2 ≤ 40 ∧ 3 + 2 * 1 ≤ 10 := by decide

/-- A signal as the theorems on targets require it. -/
noncomputable def echo (w : Fmcw) (B : ℝ) (os n p k : ℕ) (A : ℂ) (μ : ℤ) : List ℂ :=
  (List.range (w.chirps * p)).map fun t => A * exp (2 * Real.pi * I * μ / w.chirps) ^ (t / p) *
    if k * os ≤ t % p ∧ t % p < k * os + n * os then w.sample B os (t % p - k * os) else 0

example (w : Fmcw) (B : ℝ) (os n p k : ℕ) (A : ℂ) (μ : ℤ) (r : ℕ) (hr : r < w.chirps) (i : ℕ) (hi : i < p) :
    (echo w B os n p k A μ).getD (r * p + i) 0 = A * exp (2 * Real.pi * I * μ / w.chirps) ^ r *
      if k * os ≤ i ∧ i < k * os + n * os then w.sample B os (i - k * os) else 0 := by
  have hlt : r * p + i < w.chirps * p := by
    have : (r + 1) * p ≤ w.chirps * p := Nat.mul_le_mul_right _ hr
    rw [Nat.add_mul] at this
    omega
  have h1 : (r * p + i) / p = r := by
    rw [Nat.mul_comm, Nat.mul_add_div (by omega), Nat.div_eq_of_lt hi, Nat.add_zero]
  have h2 : (r * p + i) % p = i := by
    rw [Nat.mul_comm, Nat.mul_add_mod, Nat.mod_eq_of_lt hi]
  rw [echo, List.getD_eq_getElem?_getD, List.getElem?_map, List.getElem?_range hlt]
  simp only [Option.map_some, Option.getD_some, h1, h2]

end Verif.FmcwRadar
