import Verif.Np
import Mathlib.Analysis.SpecialFunctions.Complex.Circle
import Mathlib.Analysis.SpecialFunctions.Trigonometric.Basic
import Mathlib.Algebra.BigOperators.Fin
import Mathlib.Algebra.BigOperators.Intervals
import Mathlib.Data.List.GetD
import Mathlib.Tactic.Linarith
import Mathlib.Tactic.Ring
import Mathlib.Tactic.FieldSimp

/-!
# C128: superposition of signals at different carrier frequencies

`SignalBlock.superimpose_to` and the part of `DenseSignal.superimpose` of `hermespy/core/signal_model.py` concerned with
carrier frequencies: one stream, no delays, signals of one sampling rate (both callers of `superimpose_to` resample first).
`scipy.signal.firwin` is a contract.  Numbers are exact.
-/

namespace Verif.Carrier

open Verif (PyErr)

/-! ### Model -/

/-- `scipy.signal.firwin(257, cutoff, width=cutoff, fs=fs)`: cutoffs outside of `(0, fs / 2)` are refused with a `ValueError`;
the coefficients of the low-pass are symmetric and scaled to sum to one. -/
structure Firwin where
  taps : ℝ → ℝ → ℕ → ℝ
  symmetric : ∀ c fs, 0 < c → c < fs / 2 → ∀ k ≤ 256, taps c fs (256 - k) = taps c fs k
  unit : ∀ c fs, 0 < c → c < fs / 2 → ∑ k ∈ Finset.range 257, taps c fs k = 1

/-- `exp(2 j π t)`. -/
noncomputable def turn (t : ℝ) : ℂ := Complex.exp (2 * Real.pi * t * Complex.I)

/-- Sample at a possibly negative index, zero outside of the signal (`mode="constant"`). -/
noncomputable def sampleAt (x : List ℂ) (i : ℤ) : ℂ := if i < 0 then 0 else x.getD i.toNat 0

/-- One output sample of `scipy.ndimage.convolve1d(x, w, mode="constant")` with 257 weights, `core/signal_model.py` 641-643:
the middle of the weights rests at the sample. -/
noncomputable def convolve (w : ℕ → ℂ) (x : List ℂ) (n : ℕ) : ℂ :=
  ∑ k ∈ Finset.range 257, w k * sampleAt x ((n : ℤ) + 128 - k)

/-- The coefficients of the band-pass, `core/signal_model.py` 629-637. -/
noncomputable def bandpass (F : Firwin) (overlap dist r : ℝ) (k : ℕ) : ℂ :=
  (F.taps (1 / 2 * overlap) r k : ℂ) * turn (1 / 2 * dist / r * k)

/-- `SignalBlock.superimpose_to`, `core/signal_model.py` 601-658, of one stream; `rT`, `fT` are the target's sampling rate and
carrier frequency.  For a distance of zero the sinusoid is one, so both branches at 647-653 are one. -/
noncomputable def superimposeTo (F : Firwin) (rT fT r f : ℝ) (x : List ℂ) : Except PyErr (List ℂ) :=
  if rT ≤ 0 ∨ r ≤ 0 then .error .value
  else if rT = r ∧ fT = f then .ok x
  else
    let dist := fT - f
    let overlap := 1 / 2 * (rT + r) - |dist|
    if overlap ≤ 0 then .ok (x.map fun _ => 0)
    else if ¬(0 < 1 / 2 * overlap ∧ 1 / 2 * overlap < r / 2) then .error .value
    else .ok ((List.range x.length).map fun n =>
      convolve (bandpass F overlap dist r) x n * turn (-(n * dist / r)))

/-- A dense signal of one stream. -/
structure Sig where
  samples : List ℂ
  carrier : ℝ

/-- `DenseSignal.superimpose`, `core/signal_model.py` 1446-1533, of signals of sampling rate `r`, one stream and no delay. -/
noncomputable def superimpose (F : Firwin) (r : ℝ) (s a : Sig) : Except PyErr Sig :=
  if s.samples.length < 1 then .ok a
  else do
    let m ← superimposeTo F r s.carrier r a.carrier a.samples
    .ok ⟨(List.range (max s.samples.length a.samples.length)).map fun n => s.samples.getD n 0 + m.getD n 0, s.carrier⟩

/-- Superposition of several signals in turn, as by `Device.generate_output`, `core/device.py` 1440-1444. -/
noncomputable def superimposeAll (F : Firwin) (r : ℝ) : Sig → List Sig → Except PyErr Sig
  | s, [] => .ok s
  | s, a :: as => do superimposeAll F r (← superimpose F r s a) as

/-! ### Basics -/

theorem turn_add (a b : ℝ) : turn (a + b) = turn a * turn b := by
  unfold turn; rw [← Complex.exp_add]; congr 1; push_cast; ring

theorem turn_zero : turn 0 = 1 := by simp [turn]

theorem turn_half : turn (1 / 2) = -1 := by
  unfold turn
  have : (2 * (Real.pi : ℂ) * ((1 / 2 : ℝ) : ℂ) * Complex.I) = Real.pi * Complex.I := by push_cast; ring
  rw [this, Complex.exp_pi_mul_I]

theorem turn_neg_half : turn (-(1 / 2)) = -1 := by
  have h := turn_add (1 / 2) (-(1 / 2))
  rw [add_neg_cancel, turn_zero, turn_half] at h
  linear_combination h

theorem turn_ne_zero (t : ℝ) : turn t ≠ 0 := Complex.exp_ne_zero _

/-- `t ↦ exp(2 j π t)` in terms of cosine and sine. -/
theorem turn_eq (t : ℝ) : turn t = (Real.cos (2 * Real.pi * t) : ℂ) + (Real.sin (2 * Real.pi * t) : ℂ) * Complex.I := by
  unfold turn
  rw [show (2 * (Real.pi : ℂ) * (t : ℂ) * Complex.I) = ((2 * Real.pi * t : ℝ) : ℂ) * Complex.I by push_cast; ring,
    Complex.exp_mul_I]
  push_cast; rfl

theorem sampleAt_nat (x : List ℂ) (n : ℕ) : sampleAt x n = x.getD n 0 := by simp [sampleAt]

theorem overlap_ok {r d : ℝ} (hd : d ≠ 0) (ho : 0 < 1 / 2 * (r + r) - |d|) :
    0 < 1 / 2 * (1 / 2 * (r + r) - |d|) ∧ 1 / 2 * (1 / 2 * (r + r) - |d|) < r / 2 := by
  have := abs_pos.mpr hd
  constructor <;> linarith

/-- The result where bands overlap. -/
theorem superimposeTo_overlap (F : Firwin) {r fT f : ℝ} (hr : 0 < r) (hne : fT ≠ f) (ho : |fT - f| < r) (x : List ℂ) :
    superimposeTo F r fT r f x = .ok ((List.range x.length).map fun n =>
      convolve (bandpass F (1 / 2 * (r + r) - |fT - f|) (fT - f) r) x n * turn (-(n * (fT - f) / r))) := by
  have h1 : ¬(r ≤ 0 ∨ r ≤ 0) := by rintro (h | h) <;> linarith
  have h2 : ¬(r = r ∧ fT = f) := fun h => hne h.2
  have h3 : 0 < 1 / 2 * (r + r) - |fT - f| := by linarith
  have h4 := overlap_ok (r := r) (sub_ne_zero.mpr hne) h3
  unfold superimposeTo
  rw [if_neg h1, if_neg h2]
  dsimp only
  rw [if_neg (not_le.mpr h3), if_neg (not_not.mpr h4)]

/-! ### Theorems -/

/-- C128: signals of one rate and positive sampling rate are never refused, and the result is as long as the signal. -/
theorem C128_total (F : Firwin) (r fT f : ℝ) (hr : 0 < r) (x : List ℂ) :
    ∃ y, superimposeTo F r fT r f x = .ok y ∧ y.length = x.length := by
  by_cases hne : fT = f
  · refine ⟨x, ?_, rfl⟩
    unfold superimposeTo
    rw [if_neg (by rintro (h | h) <;> linarith), if_pos ⟨rfl, hne⟩]
  · by_cases ho : |fT - f| < r
    · exact ⟨_, superimposeTo_overlap F hr hne ho x, by simp⟩
    · refine ⟨x.map fun _ => 0, ?_, by simp⟩
      unfold superimposeTo
      rw [if_neg (by rintro (h | h) <;> linarith), if_neg (fun h => hne h.2)]
      dsimp only
      rw [if_pos (by linarith)]

/-- C128: a signal at the carrier frequency of the target is left as it is. -/
theorem C128_same (F : Firwin) (r f : ℝ) (hr : 0 < r) (x : List ℂ) : superimposeTo F r f r f x = .ok x := by
  unfold superimposeTo
  rw [if_neg (by rintro (h | h) <;> linarith), if_pos ⟨rfl, rfl⟩]

/-- C128: a signal contributes nothing if no frequency is within the bands of both signals, each one sampling rate wide
around its carrier. -/
theorem C128_apart (F : Firwin) (r fT f : ℝ) (hr : 0 < r)
    (h : ∀ q : ℝ, ¬(|q - fT| < r / 2 ∧ |q - f| < r / 2)) (x : List ℂ) :
    superimposeTo F r fT r f x = .ok (List.replicate x.length 0) := by
  have hd : r ≤ |fT - f| := by
    by_contra hlt
    push Not at hlt
    refine h ((fT + f) / 2) ⟨?_, ?_⟩
    · rw [show (fT + f) / 2 - fT = -((fT - f) / 2) by ring, abs_neg, abs_div, abs_of_pos (by norm_num : (0:ℝ) < 2)]
      linarith
    · rw [show (fT + f) / 2 - f = (fT - f) / 2 by ring, abs_div, abs_of_pos (by norm_num : (0:ℝ) < 2)]
      linarith
  have hne : fT ≠ f := by
    rintro rfl
    simp at hd
    linarith
  unfold superimposeTo
  rw [if_neg (by rintro (h | h) <;> linarith), if_neg (fun h => hne h.2)]
  dsimp only
  rw [if_pos (by linarith)]
  simp [List.map_const']

example : ∀ q : ℝ, ¬(|q - 100| < (10:ℝ) / 2 ∧ |q - 0| < (10:ℝ) / 2) := by
  rintro q ⟨h1, h2⟩
  rw [abs_lt] at h1 h2
  linarith

theorem sampleAt_zipWith (c : ℂ) (x y : List ℂ) (h : x.length = y.length) (i : ℤ) :
    sampleAt (List.zipWith (fun a b => c * a + b) x y) i = c * sampleAt x i + sampleAt y i := by
  unfold sampleAt
  split
  · simp
  · by_cases hi : i.toNat < x.length
    · have hy : i.toNat < y.length := h ▸ hi
      simp [List.getD, hi, hy]
    · have hy : ¬ i.toNat < y.length := h ▸ hi
      simp [List.getD, hi, hy]

/-- C128: the contribution is linear in the samples. -/
theorem C128_linear (F : Firwin) (r fT f : ℝ) (hr : 0 < r) (c : ℂ) (x y : List ℂ) (hl : x.length = y.length) :
    ∃ u v, superimposeTo F r fT r f x = .ok u ∧ superimposeTo F r fT r f y = .ok v ∧
      superimposeTo F r fT r f (List.zipWith (fun a b => c * a + b) x y) = .ok (List.zipWith (fun a b => c * a + b) u v) := by
  by_cases hne : fT = f
  · subst hne
    exact ⟨x, y, C128_same F r fT hr x, C128_same F r fT hr y, C128_same F r fT hr _⟩
  · by_cases ho : |fT - f| < r
    · refine ⟨_, _, superimposeTo_overlap F hr hne ho x, superimposeTo_overlap F hr hne ho y, ?_⟩
      rw [superimposeTo_overlap F hr hne ho]
      congr 1
      apply List.ext_getElem
      · simp [hl]
      · intro n h1 h2
        simp only [List.getElem_map, List.getElem_range, List.getElem_zipWith]
        unfold convolve
        simp only [sampleAt_zipWith c x y hl, mul_add, Finset.sum_add_distrib, add_mul]
        congr 1
        rw [Finset.sum_mul, Finset.sum_mul, Finset.mul_sum]
        exact Finset.sum_congr rfl fun k _ => by ring
    · have hz : ∀ z, superimposeTo F r fT r f z = .ok (z.map fun _ => 0) := by
        intro z
        unfold superimposeTo
        rw [if_neg (by rintro (h | h) <;> linarith), if_neg (fun h => hne h.2)]
        dsimp only
        rw [if_pos (by linarith)]
      refine ⟨_, _, hz x, hz y, ?_⟩
      rw [hz]
      congr 1
      apply List.ext_getElem
      · simp [hl]
      · intro n h1 h2
        simp

/-! ### Tones -/

/-- Samples of a tone of frequency `q` (an absolute frequency) at carrier frequency `f` and sampling rate `r`. -/
noncomputable def tone (r f q : ℝ) (a : ℂ) (N : ℕ) : List ℂ := (List.range N).map fun n : ℕ => a * turn ((q - f) / r * n)

/-- Amplitude of the low-pass at distance `q` from its centre. -/
noncomputable def gain (F : Firwin) (c r q : ℝ) : ℝ :=
  ∑ k ∈ Finset.range 257, F.taps c r k * Real.cos (2 * Real.pi * (q / r * ((k : ℝ) - 128)))

theorem gain_zero (F : Firwin) {c r : ℝ} (h1 : 0 < c) (h2 : c < r / 2) : gain F c r 0 = 1 := by
  unfold gain; simpa using F.unit c r h1 h2

theorem gain_neg (F : Firwin) (c r q : ℝ) : gain F c r (-q) = gain F c r q := by
  unfold gain
  refine Finset.sum_congr rfl fun k _ => ?_
  rw [show 2 * Real.pi * (-q / r * ((k : ℝ) - 128)) = -(2 * Real.pi * (q / r * ((k : ℝ) - 128))) by ring, Real.cos_neg]

/-- By symmetry of the coefficients, the response is real. -/
theorem response (F : Firwin) {c r : ℝ} (h1 : 0 < c) (h2 : c < r / 2) (q : ℝ) :
    ∑ k ∈ Finset.range 257, (F.taps c r k : ℂ) * turn (q / r * ((k : ℝ) - 128)) = (gain F c r q : ℂ) := by
  have hs : ∑ k ∈ Finset.range 257, F.taps c r k * Real.sin (2 * Real.pi * (q / r * ((k : ℝ) - 128))) = 0 := by
    set g : ℕ → ℝ := fun k => F.taps c r k * Real.sin (2 * Real.pi * (q / r * ((k : ℝ) - 128))) with hg
    have hr := Finset.sum_range_reflect g 257
    have : ∑ k ∈ Finset.range 257, g (257 - 1 - k) = ∑ k ∈ Finset.range 257, -g k := by
      refine Finset.sum_congr rfl fun k hk => ?_
      have hk' : k ≤ 256 := by have := Finset.mem_range.mp hk; omega
      simp only [hg]
      rw [show 257 - 1 - k = 256 - k by omega, F.symmetric c r h1 h2 k hk', Nat.cast_sub hk']
      rw [show 2 * Real.pi * (q / r * (((256 : ℕ) : ℝ) - (k : ℝ) - 128)) = -(2 * Real.pi * (q / r * ((k : ℝ) - 128))) by
        push_cast; ring, Real.sin_neg]
      ring
    rw [this, Finset.sum_neg_distrib] at hr
    linarith
  unfold gain
  have : ∀ k : ℕ, (F.taps c r k : ℂ) * turn (q / r * ((k : ℝ) - 128))
      = ((F.taps c r k * Real.cos (2 * Real.pi * (q / r * ((k : ℝ) - 128))) : ℝ) : ℂ)
        + ((F.taps c r k * Real.sin (2 * Real.pi * (q / r * ((k : ℝ) - 128))) : ℝ) : ℂ) * Complex.I := by
    intro k; rw [turn_eq]; push_cast; ring
  simp only [this, Finset.sum_add_distrib, ← Finset.sum_mul, ← Complex.ofReal_sum, hs]
  simp

theorem tone_at (r f q : ℝ) (a : ℂ) (N : ℕ) (i : ℤ) (h0 : 0 ≤ i) (h1 : i < N) :
    sampleAt (tone r f q a N) i = a * turn ((q - f) / r * i) := by
  obtain ⟨n, rfl⟩ := Int.eq_ofNat_of_zero_le h0
  rw [sampleAt_nat]
  have : n < N := by exact_mod_cast h1
  simp [tone, List.getD, this]

/-- C128, in part: away from the ends of a signal, every tone reappears at its own frequency with a real gain that depends
only on its distance from the middle of the common band, one there, and with a phase rotation common to all tones.  Missing:
the phase should not be rotated. -/
theorem C128_tone_partial (F : Firwin) (r fT f q : ℝ) (a : ℂ) (N : ℕ) (hr : 0 < r) (hne : fT ≠ f) (ho : |fT - f| < r) :
    ∃ (y : List ℂ) (g : ℝ → ℝ), superimposeTo F r fT r f (tone r f q a N) = .ok y ∧ g 0 = 1 ∧ (∀ d, g (-d) = g d) ∧
      ∀ n : ℕ, 128 ≤ n → n + 128 < N →
        y[n]? = some (turn (64 * (fT - f) / r) * g (q - (fT + f) / 2) * (a * turn ((q - fT) / r * n))) := by
  have hpos : 0 < 1 / 2 * (r + r) - |fT - f| := by linarith
  obtain ⟨c1, c2⟩ := overlap_ok (r := r) (sub_ne_zero.mpr hne) hpos
  set o := 1 / 2 * (r + r) - |fT - f| with ho'
  refine ⟨_, gain F (1 / 2 * o) r, superimposeTo_overlap F hr hne ho _, gain_zero F c1 c2, gain_neg F _ _, ?_⟩
  intro n hn hN
  have hlen : n < (tone r f q a N).length := by simp [tone]; omega
  rw [List.getElem?_map, List.getElem?_range hlen, Option.map_some, ← ho']
  congr 1
  have hrne : r ≠ 0 := ne_of_gt hr
  have hc : convolve (bandpass F o (fT - f) r) (tone r f q a N) n
      = turn (64 * (fT - f) / r) * (a * turn ((q - f) / r * n)) * (gain F (1 / 2 * o) r (-(q - (fT + f) / 2)) : ℂ) := by
    rw [← response F c1 c2, Finset.mul_sum]
    unfold convolve
    refine Finset.sum_congr rfl fun k hk => ?_
    have hk' : k ≤ 256 := by have := Finset.mem_range.mp hk; omega
    rw [tone_at _ _ _ _ _ _ (by omega) (by omega)]
    unfold bandpass
    have : turn (1 / 2 * (fT - f) / r * k) * turn ((q - f) / r * (((n : ℤ) + 128 - (k : ℤ) : ℤ) : ℝ))
        = turn (64 * (fT - f) / r) * turn ((q - f) / r * n) * turn (-(q - (fT + f) / 2) / r * ((k : ℝ) - 128)) := by
      rw [← turn_add, ← turn_add, ← turn_add]
      congr 1
      push_cast
      field_simp
      ring
    linear_combination (F.taps (1 / 2 * o) r k : ℂ) * a * this
  rw [hc, gain_neg]
  have : turn ((q - f) / r * n) * turn (-(n * (fT - f) / r)) = turn ((q - fT) / r * n) := by
    rw [← turn_add]; congr 1; field_simp; ring
  linear_combination turn (64 * (fT - f) / r) * a * (gain F (1 / 2 * o) r (q - (fT + f) / 2) : ℂ) * this

example : ∃ r fT f : ℝ, 0 < r ∧ fT ≠ f ∧ |fT - f| < r := ⟨10, 3, 1, by norm_num, by norm_num, by norm_num [abs_lt]⟩

/-- The contract can be met, here by a filter that passes everything. -/
noncomputable def exampleFirwin : Firwin where
  taps _ _ k := if k = 128 then 1 else 0
  symmetric := by intro c fs _ _ k hk; by_cases h : k = 128 <;> simp [h]; omega
  unit := by intro c fs _ _; simp

/-! ### False parts -/

/-- C128 is false in its phase: the same tone in the middle of the common band, once in a signal at carrier `fT` and once in
a signal at a carrier lower by a 128th of the sampling rate, cancels in the superposition instead of doubling. -/
theorem C128_cancel_fails (F : Firwin) (r fT : ℝ) (hr : 0 < r) (a : ℂ) (N : ℕ) (hN : 0 < N) :
    let f := fT - r / 128
    let q := (fT + f) / 2
    ∃ y, superimpose F r ⟨tone r fT q a N, fT⟩ ⟨tone r f q a N, f⟩ = .ok y ∧ y.carrier = fT ∧
      ∀ n : ℕ, 128 ≤ n → n + 128 < N → y.samples[n]? = some 0 := by
  intro f q
  have hd : fT - f = r / 128 := by simp [f]
  have hne : fT ≠ f := by intro h; rw [h, sub_self] at hd; have := div_pos hr (by norm_num : (0:ℝ) < 128); linarith
  have ho : |fT - f| < r := by rw [hd, abs_of_pos (by positivity)]; linarith
  obtain ⟨y, g, hy, hg, -, ht⟩ := C128_tone_partial F r fT f q a N hr hne ho
  unfold superimpose
  rw [if_neg (by simp [tone]; omega)]
  dsimp only
  rw [hy]
  refine ⟨_, rfl, rfl, fun n h1 h2 => ?_⟩
  have hl : n < max (tone r fT q a N).length (tone r f q a N).length := by simp [tone]; omega
  dsimp only
  rw [List.getElem?_map, List.getElem?_range hl, Option.map_some]
  congr 1
  have := ht n h1 h2
  rw [List.getD, List.getD, this]
  have hN' : n < N := by omega
  have hturn : turn (64 * (fT - f) / r) = -1 := by
    rw [hd, show 64 * (r / 128) / r = 1 / 2 by field_simp; norm_num, turn_half]
  rw [hturn, show q - (fT + f) / 2 = 0 by simp [q], hg]
  simp [tone, hN']

theorem sampleAt_shift (o : ℕ) (b : List ℂ) (i : ℤ) :
    sampleAt (List.replicate o 0 ++ b) (o + i) = sampleAt b i := by
  unfold sampleAt
  by_cases h : i < 0
  · rw [if_pos h]
    split
    · rfl
    · have : ((o : ℤ) + i).toNat < o := by omega
      simp [List.getD, List.getElem?_append_left (l₁ := List.replicate o (0:ℂ)) (by simpa using this), this]
  · rw [if_neg h, if_neg (by omega)]
    have : ((o : ℤ) + i).toNat = o + i.toNat := by omega
    rw [this]
    simp [List.getD, List.getElem?_append_right]

/-- C128, in part: a block at offset `o` of a sparse signal contributes the samples it contributes as part of a dense signal
up to the phase the sinusoid would have reached at the offset.  Missing: equality. -/
theorem C128_block_partial (F : Firwin) (r fT f : ℝ) (hr : 0 < r) (hne : fT ≠ f) (ho : |fT - f| < r) (o : ℕ) (b : List ℂ) :
    ∃ d s, superimposeTo F r fT r f (List.replicate o 0 ++ b) = .ok d ∧ superimposeTo F r fT r f b = .ok s ∧
      ∀ n < b.length, ∃ z, s[n]? = some z ∧ d[o + n]? = some (z * turn (-(o * (fT - f) / r))) := by
  refine ⟨_, _, superimposeTo_overlap F hr hne ho _, superimposeTo_overlap F hr hne ho _, fun n hn =>
    ⟨convolve (bandpass F (1 / 2 * (r + r) - |fT - f|) (fT - f) r) b n * turn (-(n * (fT - f) / r)), ?_, ?_⟩⟩
  · rw [List.getElem?_map, List.getElem?_range hn]; rfl
  · rw [List.getElem?_map, List.getElem?_range (by simp; omega), Option.map_some]
    congr 1
    have : convolve (bandpass F (1 / 2 * (r + r) - |fT - f|) (fT - f) r) (List.replicate o 0 ++ b) (o + n)
        = convolve (bandpass F (1 / 2 * (r + r) - |fT - f|) (fT - f) r) b n := by
      unfold convolve
      refine Finset.sum_congr rfl fun k _ => ?_
      rw [show (((o + n : ℕ) : ℤ) + 128 - k) = (o : ℤ) + ((n : ℤ) + 128 - k) by push_cast; ring, sampleAt_shift]
    rw [this, mul_assoc, ← turn_add]
    congr 2
    push_cast; ring

/-- C128 is false of sparse signals: a block at offset one contributes the opposite of what it contributes as part of the
equal dense signal if carriers differ by half of the sampling rate. -/
theorem C128_block_fails (F : Firwin) (r f : ℝ) (hr : 0 < r) (b : List ℂ) :
    ∃ d s, superimposeTo F r (f + r / 2) r f (0 :: b) = .ok d ∧ superimposeTo F r (f + r / 2) r f b = .ok s ∧
      ∀ n < b.length, ∃ z, s[n]? = some z ∧ d[1 + n]? = some (-z) := by
  have hne : f + r / 2 ≠ f := by intro h; linarith
  have ho : |f + r / 2 - f| < r := by rw [show f + r / 2 - f = r / 2 by ring, abs_of_pos (by positivity)]; linarith
  obtain ⟨d, s, hd, hs, h⟩ := C128_block_partial F r (f + r / 2) f hr hne ho 1 b
  refine ⟨d, s, by simpa using hd, hs, fun n hn => ?_⟩
  obtain ⟨z, h1, h2⟩ := h n hn
  refine ⟨z, h1, ?_⟩
  rw [h2]
  have : turn (-((1 : ℕ) * (f + r / 2 - f) / r)) = -1 := by
    rw [show (-(((1 : ℕ) : ℝ) * (f + r / 2 - f) / r)) = -(1 / 2) by field_simp; ring, turn_neg_half]
  rw [this]; congr 1; ring

/-! ### Several signals -/

/-- The samples one signal contributes. -/
noncomputable def contribution (F : Firwin) (r fT : ℝ) (a : Sig) (n : ℕ) : ℂ :=
  match superimposeTo F r fT r a.carrier a.samples with
  | .ok m => m.getD n 0
  | .error _ => 0

theorem superimpose_spec (F : Firwin) (r : ℝ) (hr : 0 < r) (s a : Sig) (hs : 0 < s.samples.length) :
    ∃ y, superimpose F r s a = .ok y ∧ y.carrier = s.carrier ∧
      y.samples.length = max s.samples.length a.samples.length ∧
      ∀ n, y.samples.getD n 0 = s.samples.getD n 0 + contribution F r s.carrier a n := by
  obtain ⟨m, hm, hl⟩ := C128_total F r s.carrier a.carrier hr a.samples
  unfold superimpose
  rw [if_neg (by omega), hm]
  refine ⟨_, rfl, rfl, by simp, fun n => ?_⟩
  unfold contribution
  rw [hm]
  by_cases hn : n < max s.samples.length a.samples.length
  · have h : ((List.range (max s.samples.length a.samples.length)).map
        fun n => s.samples.getD n 0 + m.getD n 0)[n]? = some (s.samples.getD n 0 + m.getD n 0) := by
      rw [List.getElem?_map, List.getElem?_range hn]; rfl
    dsimp only
    rw [List.getD, h]; rfl
  · have h1 : s.samples.length ≤ n := by omega
    have h2 : m.length ≤ n := by omega
    have h3 : max s.samples.length a.samples.length ≤ n := by omega
    dsimp only
    rw [List.getD_eq_default _ _ (by simpa using h3), List.getD_eq_default _ _ h1, List.getD_eq_default _ _ h2, add_zero]

theorem superimposeAll_spec (F : Firwin) (r : ℝ) (hr : 0 < r) (as : List Sig) :
    ∀ s : Sig, 0 < s.samples.length → ∃ y, superimposeAll F r s as = .ok y ∧ y.carrier = s.carrier ∧
      y.samples.length = (as.map fun a => a.samples.length).foldr max s.samples.length ∧
      ∀ n, y.samples.getD n 0 = s.samples.getD n 0 + (as.map fun a => contribution F r s.carrier a n).sum := by
  induction as with
  | nil => exact fun s _ => ⟨s, rfl, rfl, rfl, fun n => by simp⟩
  | cons a as ih =>
    intro s hs
    obtain ⟨y, h1, h2, h3, h4⟩ := superimpose_spec F r hr s a hs
    obtain ⟨z, g1, g2, g3, g4⟩ := ih y (by omega)
    refine ⟨z, ?_, g2.trans h2, ?_, fun n => ?_⟩
    · unfold superimposeAll; rw [h1]; exact g1
    · rw [g3, h3]
      have : ∀ (l : List ℕ) (x y : ℕ), l.foldr max (max x y) = max y (l.foldr max x) := by
        intro l x y
        induction l with
        | nil => simp [max_comm]
        | cons b l ihl => simp only [List.foldr_cons, ihl]; omega
      rw [this]; simp
    · rw [g4, h4, h2]; simp [add_assoc]

/-- C128: the superposition of any number of signals on a signal with samples is at that signal's carrier frequency, is long
enough for all of them, and does not depend on their order. -/
theorem C128_order (F : Firwin) (r : ℝ) (hr : 0 < r) (s : Sig) (hs : 0 < s.samples.length) (as bs : List Sig)
    (hp : as.Perm bs) :
    ∃ y, superimposeAll F r s as = .ok y ∧ superimposeAll F r s bs = .ok y ∧ y.carrier = s.carrier ∧
      s.samples.length ≤ y.samples.length ∧ ∀ a ∈ as, a.samples.length ≤ y.samples.length := by
  obtain ⟨y, h1, h2, h3, h4⟩ := superimposeAll_spec F r hr as s hs
  obtain ⟨z, g1, g2, g3, g4⟩ := superimposeAll_spec F r hr bs s hs
  have hlen : y.samples.length = z.samples.length := by
    rw [h3, g3]
    exact (hp.map _).foldr_eq (f := max) _
  have hyz : y = z := by
    obtain ⟨ys, yc⟩ := y
    obtain ⟨zs, zc⟩ := z
    simp only [Sig.mk.injEq]
    refine ⟨List.ext_getElem hlen fun n i j => ?_, h2.trans g2.symm⟩
    have e1 := h4 n
    have e2 := g4 n
    rw [List.getD_eq_getElem _ _ i] at e1
    rw [List.getD_eq_getElem _ _ j] at e2
    rw [e1, e2, (hp.map fun a => contribution F r s.carrier a n).sum_eq]
  have hge : ∀ (l : List ℕ) (x : ℕ), x ≤ l.foldr max x ∧ ∀ k ∈ l, k ≤ l.foldr max x := by
    intro l x
    induction l with
    | nil => simp
    | cons b l ih =>
      refine ⟨by simp only [List.foldr_cons]; omega, fun k hk => ?_⟩
      rcases List.mem_cons.mp hk with rfl | hk
      · simp
      · have := ih.2 k hk; simp only [List.foldr_cons]; omega
  refine ⟨y, h1, hyz ▸ g1, h2, ?_, fun a ha => ?_⟩
  · rw [h3]; exact (hge _ _).1
  · rw [h3]; exact (hge _ _).2 _ (List.mem_map.mpr ⟨a, ha, rfl⟩)

/-- C128 is false of signals superimposed on an empty signal, as in every device output: the first signal determines the
carrier frequency, so that a signal at the carrier of the empty signal is lost after one at another carrier too far away. -/
theorem C128_empty_fails (F : Firwin) (r f0 f : ℝ) (hr : 0 < r) (hd : r ≤ |f - f0|) (x y : List ℂ) (hx : 0 < x.length)
    (hl : x.length = y.length) :
    superimposeAll F r ⟨[], f0⟩ [⟨x, f⟩, ⟨y, f0⟩] = .ok ⟨x, f⟩ ∧
    superimposeAll F r ⟨[], f0⟩ [⟨y, f0⟩, ⟨x, f⟩] = .ok ⟨y, f0⟩ := by
  have key : ∀ (u v : List ℂ) (g h : ℝ), 0 < u.length → u.length = v.length → r ≤ |g - h| →
      superimposeAll F r ⟨[], f0⟩ [⟨u, g⟩, ⟨v, h⟩] = .ok ⟨u, g⟩ := by
    intro u v g h hu huv hgh
    have hz : superimposeTo F r g r h v = .ok (v.map fun _ => 0) := by
      have hne : g ≠ h := by rintro rfl; simp at hgh; linarith
      unfold superimposeTo
      rw [if_neg (by rintro (h | h) <;> linarith), if_neg (fun h => hne h.2)]
      dsimp only
      rw [if_pos (by linarith)]
    have h1 : superimpose F r ⟨[], f0⟩ ⟨u, g⟩ = .ok ⟨u, g⟩ := by unfold superimpose; rw [if_pos (by simp)]
    have h2 : superimpose F r ⟨u, g⟩ ⟨v, h⟩ = .ok ⟨u, g⟩ := by
      unfold superimpose
      rw [if_neg (by dsimp only; omega)]
      dsimp only
      rw [hz]
      show Except.ok _ = Except.ok _
      congr 2
      apply List.ext_getElem
      · simp [huv]
      · intro n i j
        simp [List.getD, j]
    show (superimpose F r ⟨[], f0⟩ ⟨u, g⟩ >>= fun s => superimposeAll F r s [⟨v, h⟩]) = _
    rw [h1]
    show (superimpose F r ⟨u, g⟩ ⟨v, h⟩ >>= fun s => superimposeAll F r s []) = _
    rw [h2]; rfl
  refine ⟨key x y f f0 hx hl hd, key y x f0 f (by omega) hl.symm ?_⟩
  rwa [abs_sub_comm]

example : (10:ℝ) ≤ |(100:ℝ) - 0| := by norm_num

end Verif.Carrier
