import Verif.Modem.Pulse
import Verif.Channel.State

/-!
# C136: ideal channel estimation of single carrier waveforms

`SingleCarrierIdealChannelEstimation` of `hermespy/simulation/modem/channel_estimation.py` and what zero forcing makes of its
estimates.  Samples are complex numbers, filter taps exact.
-/

namespace Verif.SingleIdeal

open Verif.SingleCarrier (Waveform Pulse rectangular frequencyModulated chirp at0 zeroForcing)
open Verif.Channel.State (Csi toImpulse)
open Verif (PyErr)

/-! ### Model -/

/-- States of symbols: `StatedSymbols.states`, `hermespy/modem/symbols.py` 345-359, of blocks of a single symbol. -/
structure States where
  rx : ℕ
  tx : ℕ
  blocks : ℕ
  val : ℕ → ℕ → ℕ → ℂ

/-- `filter_characteristics`, `channel_estimation.py` 148-150: the filters are multiplied tap by tap.  The filters of every pulse
have as many taps as each other. -/
def characteristics (p : Pulse ℂ) : List ℂ := List.zipWith (· * ·) p.tx p.rx

/-- `convolve(state, filter[None, None, :, None], "full")`, `channel_estimation.py` 161-163: sample `n` of tap `d`. -/
noncomputable def filtered (g : List ℂ) (smp : ℕ) (x : ℕ → ℕ → ℂ) (n d : ℕ) : ℂ :=
  ∑ j ∈ Finset.range g.length, g.getD j 0 * if j ≤ n ∧ n - j < smp then x (n - j) d else 0

/-- `summed_state`, `channel_estimation.py` 165-167, after the first passes of the loop: tap `d` is added `d` samples later. -/
noncomputable def sumTaps (F : ℕ → ℕ → ℂ) : ℕ → ℕ → ℂ
  | 0, n => F n 0
  | m + 1, n => sumTaps F m n + if m + 1 ≤ n then F (n - (m + 1)) (m + 1) else 0

/-- `estimate_channel`, `channel_estimation.py` 139-178, with `_csi`, 84-131, and the checks of `hermespy/modem/symbols.py` 361-380.
`state` is the sample cached by the hook, as a function of the numbers of samples and of taps, if there is one; `samples` is
`samples_per_frame`; symbols have `streams` streams of `blocks` blocks. -/
noncomputable def estimate (w : Waveform ℂ) (p : Pulse ℂ) (os samples : ℕ) (state : Option (ℕ → ℕ → Csi ℂ)) (streams blocks : ℕ)
    (_delay : ℚ) : Except PyErr States :=
  match state with
  | none => .error .runtime
  | some f =>
    let c := toImpulse (f samples samples)
    let g := characteristics p
    let len := c.smp + g.length - 1
    let start := p.delay / 2
    let num := (min (start + w.size * os) len - min start len + os - 1) / os
    if c.inf = 0 then .error .index
    else if c.rx ≠ streams then .error .value
    else if num ≠ blocks then .error .value
    else .ok ⟨c.rx, c.tx, num, fun r t k =>
      sumTaps (filtered g c.smp (c.st r t)) (min os c.inf - 1) (start + k * os)⟩

/-! ### Estimates -/

/-- A channel in the time domain without delay, of gain `h r t n` at sample `n`. -/
def Flat (c : Csi ℂ) (h : ℕ → ℕ → ℕ → ℂ) : Prop :=
  c.fmt = .impulse ∧ 0 < c.inf ∧ ∀ r t n d, c.st r t n d = if d = 0 then h r t n else 0

theorem sumTaps_eq (F : ℕ → ℕ → ℂ) (m n : ℕ) :
    sumTaps F m n = ∑ d ∈ Finset.range (m + 1), if d ≤ n then F (n - d) d else 0 := by
  induction m with
  | zero => simp [sumTaps]
  | succ m ih => rw [sumTaps, ih, Finset.sum_range_succ _ (m + 1)]

theorem toImpulse_of (c : Csi ℂ) (h : c.fmt = .impulse) : toImpulse c = c := by
  unfold toImpulse
  rw [if_neg]
  rw [h]
  decide

/-- The number of symbols picked. -/
theorem picked (start size os len : ℕ) (hos : 0 < os) (hl : start + size * os < len + os) (h0 : 0 < size) :
    (min (start + size * os) len - min start len + os - 1) / os = size := by
  obtain ⟨m, rfl⟩ : ∃ m, size = m + 1 := ⟨size - 1, by omega⟩
  have e : (m + 1) * os = m * os + os := by ring
  rw [e] at hl ⊢
  have h1 : min start len = start := by omega
  rw [h1]
  rcases le_total (start + (m * os + os)) len with h | h
  · rw [min_eq_left h]
    have : start + (m * os + os) - start + os - 1 = (os - 1) + (m + 1) * os := by rw [e]; omega
    rw [this, Nat.add_mul_div_right _ _ hos, Nat.div_eq_of_lt (by omega)]
    omega
  · rw [min_eq_right h]
    have : len - start + os - 1 = (len - start - m * os - 1) + (m + 1) * os := by rw [e]; omega
    rw [this, Nat.add_mul_div_right _ _ hos, Nat.div_eq_of_lt (by omega)]
    omega

/-- C136, estimates: every symbol of a frame is given a state, for every pair of streams the sum over the paths delayed by less than a
symbol of the gains weighted by the products of the filter taps. -/
theorem C136_estimate (w : Waveform ℂ) (p : Pulse ℂ) (os samples : ℕ) (hos : 0 < os) (hw : 0 < w.size) (f : ℕ → ℕ → Csi ℂ) (c : Csi ℂ)
    (hc : f samples samples = c) (hi : c.fmt = .impulse) (hinf : 0 < c.inf)
    (hlen : p.delay / 2 + w.size * os + 1 < c.smp + (characteristics p).length + os) (delay : ℚ) :
    ∃ e, estimate w p os samples (some f) c.rx w.size delay = .ok e ∧ e.rx = c.rx ∧ e.tx = c.tx ∧ e.blocks = w.size ∧
      ∀ r t k, e.val r t k = ∑ d ∈ Finset.range (min os c.inf), ∑ j ∈ Finset.range (characteristics p).length,
        (characteristics p).getD j 0 *
          if d + j ≤ p.delay / 2 + k * os ∧ p.delay / 2 + k * os - d - j < c.smp then c.st r t (p.delay / 2 + k * os - d - j) d else 0 := by
  have hnum := picked (p.delay / 2) w.size os (c.smp + (characteristics p).length - 1) hos (by omega) hw
  refine ⟨⟨c.rx, c.tx, w.size, fun r t k => sumTaps (filtered (characteristics p) c.smp (c.st r t)) (min os c.inf - 1)
    (p.delay / 2 + k * os)⟩, ?_, rfl, rfl, rfl, fun r t k => ?_⟩
  · unfold estimate
    simp only [hc, toImpulse_of c hi, hnum]
    rw [if_neg (by omega), if_neg (by simp), if_neg (by simp)]
  · dsimp only
    rw [sumTaps_eq, show min os c.inf - 1 + 1 = min os c.inf by omega]
    refine Finset.sum_congr rfl fun d _ => ?_
    unfold filtered
    by_cases hd : d ≤ p.delay / 2 + k * os
    · rw [if_pos hd]
      refine Finset.sum_congr rfl fun j _ => ?_
      congr 1
      have : (j ≤ p.delay / 2 + k * os - d ∧ p.delay / 2 + k * os - d - j < c.smp) ↔
          (d + j ≤ p.delay / 2 + k * os ∧ p.delay / 2 + k * os - d - j < c.smp) := by omega
      rw [if_congr this rfl rfl]
    · rw [if_neg hd]
      symm
      refine Finset.sum_eq_zero fun j _ => ?_
      rw [if_neg (by omega), mul_zero]

/-- The estimates of channels without delay. -/
theorem estimate_flat (w : Waveform ℂ) (p : Pulse ℂ) (os samples : ℕ) (hos : 0 < os) (hw : 0 < w.size) (f : ℕ → ℕ → Csi ℂ) (c : Csi ℂ)
    (hc : f samples samples = c) (h : ℕ → ℕ → ℕ → ℂ) (hflat : Flat c h)
    (hlen : p.delay / 2 + w.size * os + 1 < c.smp + (characteristics p).length + os) (delay : ℚ) :
    ∃ e, estimate w p os samples (some f) c.rx w.size delay = .ok e ∧ e.rx = c.rx ∧ e.tx = c.tx ∧ e.blocks = w.size ∧
      ∀ r t k, e.val r t k = ∑ j ∈ Finset.range (characteristics p).length, (characteristics p).getD j 0 *
        if j ≤ p.delay / 2 + k * os ∧ p.delay / 2 + k * os - j < c.smp then h r t (p.delay / 2 + k * os - j) else 0 := by
  obtain ⟨hi, hinf, hst⟩ := hflat
  obtain ⟨e, he, h1, h2, h3, hv⟩ := C136_estimate w p os samples hos hw f c hc hi hinf hlen delay
  refine ⟨e, he, h1, h2, h3, fun r t k => ?_⟩
  rw [hv r t k, Finset.sum_eq_single_of_mem 0 (by simp; omega)]
  · refine Finset.sum_congr rfl fun j _ => ?_
    simp [hst]
  · intro d _ hd
    refine Finset.sum_eq_zero fun j _ => ?_
    simp [hst, hd]

theorem rectangular_characteristics (os : ℕ) : characteristics (rectangular os) = List.replicate os (1 / (os : ℂ)) := by
  simp [characteristics, rectangular]

/-- C136, rectangular pulses: all symbols but the first are given the average of the gains of a channel without delay over as many samples
as a symbol has, the last of which is in the middle of the symbol. -/
theorem C136_average_partial (w : Waveform ℂ) (os : ℕ) (hos : 0 < os) (hw : 0 < w.size) (f : ℕ → ℕ → Csi ℂ) (c : Csi ℂ)
    (hc : f (w.size * os) (w.size * os) = c) (hs : c.smp = w.size * os) (h : ℕ → ℕ → ℕ → ℂ) (hflat : Flat c h) (delay : ℚ) :
    ∃ e, estimate w (rectangular os) os (w.size * os) (some f) c.rx w.size delay = .ok e ∧ e.rx = c.rx ∧ e.tx = c.tx ∧ e.blocks = w.size ∧
      (∀ r t k, 0 < k → k < w.size →
        e.val r t k = (∑ j ∈ Finset.range os, h r t ((os - 1) / 2 + k * os - j)) / os) ∧
      ∀ r t, e.val r t 0 = (∑ i ∈ Finset.range ((os - 1) / 2 + 1), h r t i) / os := by
  obtain ⟨e, he, h1, h2, h3, hv⟩ := estimate_flat w (rectangular os) os (w.size * os) hos hw f c hc h hflat
    (by rw [rectangular_characteristics, hs]; simp [rectangular]; omega) delay
  have hg : ∀ j, j < os → (characteristics (rectangular os)).getD j 0 = 1 / os := by
    intro j hj
    rw [rectangular_characteristics]
    simp [List.getD_eq_getElem?_getD, hj]
  have hgl : (characteristics (rectangular os)).length = os := by rw [rectangular_characteristics]; simp
  have hdel : (rectangular os).delay = os - 1 := rfl
  refine ⟨e, he, h1, h2, h3, fun r t k h0 hk => ?_, fun r t => ?_⟩
  · rw [hv r t k, hgl, hdel, Finset.sum_div]
    refine Finset.sum_congr rfl fun j hj => ?_
    rw [Finset.mem_range] at hj
    have hko : os ≤ k * os := Nat.le_mul_of_pos_left _ h0
    have hkw : k * os + os ≤ w.size * os := by
      have := Nat.mul_le_mul_right os (show k + 1 ≤ w.size by omega)
      rw [Nat.add_mul, Nat.one_mul] at this
      exact this
    rw [hg j hj, if_pos ⟨by omega, by rw [hs]; omega⟩]
    ring
  · have hwo : os ≤ w.size * os := Nat.le_mul_of_pos_left _ hw
    rw [hv r t 0, hgl, hdel, Nat.zero_mul, Nat.add_zero, ← Finset.sum_range_reflect (fun i => h r t i), Finset.sum_div]
    have hsub : Finset.range ((os - 1) / 2 + 1) ⊆ Finset.range os := by
      intro j hj
      simp only [Finset.mem_range] at hj ⊢
      omega
    rw [← Finset.sum_subset hsub]
    · refine Finset.sum_congr rfl fun j hj => ?_
      rw [Finset.mem_range] at hj
      rw [hg j (by omega), if_pos ⟨by omega, by rw [hs]; omega⟩, show (os - 1) / 2 + 1 - 1 - j = (os - 1) / 2 - j by omega]
      ring
    · intro j hj hj'
      simp only [Finset.mem_range] at hj hj'
      rw [if_neg (by omega), mul_zero]

/-- C136, rectangular pulses over a static channel without delay: all symbols but the first are given the gain of the channel, so that zero
forcing yields what was sent; with an oversampling factor of one the first as well. -/
theorem C136_static_partial (w : Waveform ℂ) (os : ℕ) (hos : 0 < os) (hw : 0 < w.size) (f : ℕ → ℕ → Csi ℂ) (c : Csi ℂ)
    (hc : f (w.size * os) (w.size * os) = c) (hs : c.smp = w.size * os) (g : ℂ) (hg : g ≠ 0) (hflat : Flat c fun _ _ _ => g) (delay : ℚ)
    (hr : c.rx = 1) (s : List ℂ) (hl : s.length = w.size) :
    ∃ y rx e, w.modulate (rectangular os) s = .ok y ∧ w.demodulate (rectangular os) (y.map (g * ·)) = .ok rx ∧
      estimate w (rectangular os) os (w.size * os) (some f) 1 w.size delay = .ok e ∧
      ∀ k < w.size, 0 < k ∨ os = 1 → e.val 0 0 k = g ∧
        (zeroForcing rx ((List.range w.size).map (e.val 0 0))).getD k 0 = s.getD k 0 := by
  obtain ⟨y, hm, -, hd⟩ := Verif.SingleCarrier.C92_rectangular w os hos hw s hl g
  obtain ⟨e, he, -, -, -, hv, hv0⟩ := C136_average_partial w os hos hw f c hc hs _ hflat delay
  rw [hr] at he
  have ho : (os : ℂ) ≠ 0 := by exact_mod_cast hos.ne'
  refine ⟨y, _, e, hm, hd, he, fun k hk h => ?_⟩
  have hek : e.val 0 0 k = g := by
    rcases Nat.eq_zero_or_pos k with rfl | h0
    · obtain rfl : os = 1 := by omega
      rw [hv0]
      simp
    · rw [hv 0 0 k h0 hk, Finset.sum_const, Finset.card_range, nsmul_eq_mul]
      field_simp
  refine ⟨hek, ?_⟩
  unfold zeroForcing
  simp only [List.getD_eq_getElem?_getD, List.getElem?_zipWith, List.getElem?_map, List.getElem?_range hk, Option.map_some, hek]
  rw [List.getElem?_eq_getElem (by omega)]
  simp only [Option.map_some, Option.getD_some]
  field_simp

/-- C136 fails for the first symbol of every frame: of rectangular pulses of more than a sample its estimate is too small, by nearly one
half, and zero forcing doubles it. -/
theorem C136_first_fails (w : Waveform ℂ) (os : ℕ) (hos : 1 < os) (hw : 0 < w.size) (f : ℕ → ℕ → Csi ℂ) (c : Csi ℂ)
    (hc : f (w.size * os) (w.size * os) = c) (hs : c.smp = w.size * os) (g : ℂ) (hg : g ≠ 0) (hflat : Flat c fun _ _ _ => g) (delay : ℚ)
    (hr : c.rx = 1) (s : List ℂ) (hl : s.length = w.size) (h0 : s.getD 0 0 ≠ 0) :
    ∃ y rx e, w.modulate (rectangular os) s = .ok y ∧ w.demodulate (rectangular os) (y.map (g * ·)) = .ok rx ∧
      estimate w (rectangular os) os (w.size * os) (some f) 1 w.size delay = .ok e ∧
      e.val 0 0 0 = ((os + 1) / 2 : ℕ) / (os : ℂ) * g ∧ e.val 0 0 0 ≠ g ∧
      (zeroForcing rx ((List.range w.size).map (e.val 0 0))).getD 0 0 = (os : ℂ) / ((os + 1) / 2 : ℕ) * s.getD 0 0 ∧
      (zeroForcing rx ((List.range w.size).map (e.val 0 0))).getD 0 0 ≠ s.getD 0 0 := by
  obtain ⟨y, hm, -, hd⟩ := Verif.SingleCarrier.C92_rectangular w os (by omega) hw s hl g
  obtain ⟨e, he, -, -, -, -, hv0⟩ := C136_average_partial w os (by omega) hw f c hc hs _ hflat delay
  rw [hr] at he
  have ho : (os : ℂ) ≠ 0 := by exact_mod_cast (show os ≠ 0 by omega)
  have hh : (((os + 1) / 2 : ℕ) : ℂ) ≠ 0 := by exact_mod_cast (show (os + 1) / 2 ≠ 0 by omega)
  have hne : (((os + 1) / 2 : ℕ) : ℂ) ≠ os := by exact_mod_cast (show (os + 1) / 2 ≠ os by omega)
  have he0 : e.val 0 0 0 = ((os + 1) / 2 : ℕ) / (os : ℂ) * g := by
    rw [hv0, Finset.sum_const, Finset.card_range, nsmul_eq_mul, show (os - 1) / 2 + 1 = (os + 1) / 2 by omega]
    ring
  have hz : (zeroForcing (s.map (g * ·)) ((List.range w.size).map (e.val 0 0))).getD 0 0 =
      (os : ℂ) / ((os + 1) / 2 : ℕ) * s.getD 0 0 := by
    unfold zeroForcing
    simp only [List.getD_eq_getElem?_getD, List.getElem?_zipWith, List.getElem?_map, List.getElem?_range hw, Option.map_some, he0]
    rw [List.getElem?_eq_getElem (by omega)]
    simp only [Option.map_some, Option.getD_some]
    field_simp
  refine ⟨y, _, e, hm, hd, he, he0, ?_, hz, ?_⟩
  · rw [he0]
    intro h
    apply hne
    have : ((((os + 1) / 2 : ℕ) : ℂ) / os - 1) * g = 0 := by linear_combination h
    rcases mul_eq_zero.mp this with h | h
    · field_simp at h
      linear_combination h
    · exact absurd h hg
  · rw [hz]
    intro h
    apply hne
    have : ((os : ℂ) / ((os + 1) / 2 : ℕ) - 1) * s.getD 0 0 = 0 := by linear_combination h
    rcases mul_eq_zero.mp this with h | h
    · field_simp at h
      linear_combination -h
    · exact absurd h h0

/-- C136 fails for symbols over which a channel changes: a channel of gain `b` throughout the symbol and `a` throughout that before it is
estimated to be in between. -/
theorem C136_change_fails (w : Waveform ℂ) (os : ℕ) (hos : 1 < os) (hw : 0 < w.size) (f : ℕ → ℕ → Csi ℂ) (c : Csi ℂ)
    (hc : f (w.size * os) (w.size * os) = c) (hs : c.smp = w.size * os) (k : ℕ) (h0 : 0 < k) (hk : k < w.size) (a b : ℂ) (hab : a ≠ b)
    (hflat : Flat c fun _ _ n => if n < k * os then a else b) (delay : ℚ) :
    ∃ e, estimate w (rectangular os) os (w.size * os) (some f) c.rx w.size delay = .ok e ∧
      ∀ r t, e.val r t k = ((os / 2 : ℕ) * a + ((os + 1) / 2 : ℕ) * b) / os ∧ e.val r t k ≠ b := by
  obtain ⟨e, he, -, -, -, hv, -⟩ := C136_average_partial w os (by omega) hw f c hc hs _ hflat delay
  have ho : (os : ℂ) ≠ 0 := by exact_mod_cast (show os ≠ 0 by omega)
  have hsum : (((os / 2 : ℕ) : ℂ) + ((os + 1) / 2 : ℕ)) = os := by
    exact_mod_cast (show os / 2 + (os + 1) / 2 = os by omega)
  have hhalf : (((os / 2 : ℕ) : ℂ)) ≠ 0 := by exact_mod_cast (show os / 2 ≠ 0 by omega)
  refine ⟨e, he, fun r t => ?_⟩
  have hek : e.val r t k = ((os / 2 : ℕ) * a + ((os + 1) / 2 : ℕ) * b) / os := by
    rw [hv r t k h0 hk]
    congr 1
    have hko : os ≤ k * os := Nat.le_mul_of_pos_left _ h0
    rw [show Finset.range os = Finset.range ((os + 1) / 2 + os / 2) by congr 1; omega, Finset.sum_range_add]
    have e1 : ∀ j ∈ Finset.range ((os + 1) / 2), (if (os - 1) / 2 + k * os - j < k * os then a else b) = b := by
      intro j hj
      rw [Finset.mem_range] at hj
      rw [if_neg (by omega)]
    have e2 : ∀ j ∈ Finset.range (os / 2), (if (os - 1) / 2 + k * os - ((os + 1) / 2 + j) < k * os then a else b) = a := by
      intro j hj
      rw [Finset.mem_range] at hj
      rw [if_pos (by omega)]
    rw [Finset.sum_congr rfl e1, Finset.sum_congr rfl e2]
    simp
    ring
  refine ⟨hek, ?_⟩
  rw [hek]
  intro h
  apply hab
  have h' : ((os / 2 : ℕ) : ℂ) * (a - b) = 0 := by
    field_simp at h
    linear_combination h - b * hsum
  rcases mul_eq_zero.mp h' with h' | h'
  · exact absurd h' hhalf
  · exact sub_eq_zero.mp h'

/-- The taps of both filters of chirps, multiplied. -/
theorem chirp_characteristics (perChirp os : ℕ) (h : 0 < perChirp * os) :
    (characteristics (frequencyModulated perChirp os)).length = os * perChirp ∧
      ∀ j, ‖(characteristics (frequencyModulated perChirp os)).getD j 0‖ ≤ 1 / (os * perChirp : ℕ) := by
  have hl : (chirp perChirp os).length = perChirp * os := by simp [chirp]
  refine ⟨by simp [characteristics, frequencyModulated, hl, Nat.mul_comm], fun j => ?_⟩
  have hpos : (0 : ℝ) < (os * perChirp : ℕ) := by exact_mod_cast (by rw [Nat.mul_comm]; exact h)
  by_cases hj : j < perChirp * os
  · have hn := fun i (hi : i < perChirp * os) => Verif.SingleCarrier.chirp_norm perChirp os i hi
    have hn' : ∀ i (hi : i < (chirp perChirp os).length), ‖(chirp perChirp os)[i]‖ = 1 := by
      intro i hi
      have := hn i (by omega)
      rw [Verif.SingleCarrier.at0_nat, List.getD_eq_getElem?_getD, List.getElem?_eq_getElem hi] at this
      simpa using this
    simp only [characteristics, frequencyModulated, List.getD_eq_getElem?_getD, List.getElem?_zipWith, List.getElem?_map]
    rw [List.getElem?_eq_getElem (by omega), List.getElem?_reverse (by simp; omega), List.getElem?_map,
      List.getElem?_eq_getElem (by simp; omega)]
    simp only [Option.map_some, Option.getD_some, norm_mul, norm_div, hn', RCLike.norm_conj, Complex.norm_natCast]
    push_cast
    rw [one_mul]
  · rw [List.getD_eq_getElem?_getD, List.getElem?_eq_none]
    · rw [Option.getD_none, norm_zero]
      positivity
    · simp [characteristics, frequencyModulated, hl]
      omega

/-- C136 fails for chirps: as long as the filter has not passed, the magnitude of the estimates of a static channel is too small.  The number
of these symbols grows with the length of the chirps, since symbols are looked for after every sample of the bandwidth. -/
theorem C136_chirps_fails (w : Waveform ℂ) (perChirp os : ℕ) (hc0 : 0 < perChirp) (hos : 0 < os) (hw : 0 < w.size) (f : ℕ → ℕ → Csi ℂ)
    (c : Csi ℂ) (hc : f (w.size * perChirp * os) (w.size * perChirp * os) = c) (hs : c.smp = w.size * perChirp * os) (g : ℂ) (hg : g ≠ 0)
    (hflat : Flat c fun _ _ _ => g) (delay : ℚ) :
    ∃ e, estimate w (frequencyModulated perChirp os) os (w.size * perChirp * os) (some f) c.rx w.size delay = .ok e ∧
      ∀ r t k, (os * perChirp - 1) / 2 + k * os + 1 < os * perChirp → ‖e.val r t k‖ < ‖g‖ := by
  have hpos : 0 < perChirp * os := Nat.mul_pos hc0 hos
  obtain ⟨hgl, hgn⟩ := chirp_characteristics perChirp os hpos
  have hdel : (frequencyModulated perChirp os).delay = os * perChirp - 1 := rfl
  have hbig : w.size * os ≤ w.size * perChirp * os := by
    rw [Nat.mul_assoc]
    exact Nat.mul_le_mul_left _ (Nat.le_mul_of_pos_left _ hc0)
  have hT : os ≤ os * perChirp := Nat.le_mul_of_pos_right _ hc0
  obtain ⟨e, he, -, -, -, hv⟩ := estimate_flat w (frequencyModulated perChirp os) os (w.size * perChirp * os) hos hw f c hc _ hflat
    (by rw [hgl, hdel, hs]; omega) delay
  refine ⟨e, he, fun r t k hk => ?_⟩
  set T := os * perChirp with hTT
  have hTpos : (0 : ℝ) < (T : ℕ) := by exact_mod_cast (by omega)
  have hgp : 0 < ‖g‖ := norm_pos_iff.mpr hg
  rw [hv r t k, hgl, hdel]
  have hsub : Finset.range ((T - 1) / 2 + k * os + 1) ⊆ Finset.range T := by
    intro j hj
    simp only [Finset.mem_range] at hj ⊢
    omega
  rw [← Finset.sum_subset hsub]
  · calc ‖∑ j ∈ Finset.range ((T - 1) / 2 + k * os + 1), _‖
        ≤ ∑ j ∈ Finset.range ((T - 1) / 2 + k * os + 1), 1 / (T : ℝ) * ‖g‖ := by
          refine norm_sum_le_of_le _ fun j _ => ?_
          rw [norm_mul]
          refine mul_le_mul (hgn j) ?_ (norm_nonneg _) (by positivity)
          split <;> simp
      _ = (((T - 1) / 2 + k * os + 1 : ℕ) : ℝ) / T * ‖g‖ := by
          rw [Finset.sum_const, Finset.card_range, nsmul_eq_mul]
          ring
      _ < 1 * ‖g‖ := by
          refine mul_lt_mul_of_pos_right ?_ hgp
          rw [div_lt_one hTpos]
          exact_mod_cast hk
      _ = ‖g‖ := one_mul _
  · intro j hj hj'
    simp only [Finset.mem_range] at hj hj'
    rw [if_neg (by omega), mul_zero]

/-- C136, static channels of several paths and rectangular pulses: from the third symbol on the estimate is the sum of the gains of the paths
delayed by less than a symbol.  Such is the gain of the symbol only if no path is delayed. -/
theorem C136_paths_partial (w : Waveform ℂ) (os : ℕ) (hos : 0 < os) (hw : 0 < w.size) (f : ℕ → ℕ → Csi ℂ) (c : Csi ℂ)
    (hc : f (w.size * os) (w.size * os) = c) (hs : c.smp = w.size * os) (hi : c.fmt = .impulse) (hinf : 0 < c.inf) (h : ℕ → ℕ → ℕ → ℂ)
    (hst : ∀ r t n d, c.st r t n d = h r t d) (delay : ℚ) :
    ∃ e, estimate w (rectangular os) os (w.size * os) (some f) c.rx w.size delay = .ok e ∧
      ∀ r t k, 2 ≤ k → k < w.size → e.val r t k = ∑ d ∈ Finset.range (min os c.inf), h r t d := by
  have hgl : (characteristics (rectangular os)).length = os := by rw [rectangular_characteristics]; simp
  have hdel : (rectangular os).delay = os - 1 := rfl
  have ho : (os : ℂ) ≠ 0 := by exact_mod_cast hos.ne'
  obtain ⟨e, he, -, -, -, hv⟩ := C136_estimate w (rectangular os) os (w.size * os) hos hw f c hc hi hinf (by rw [hgl, hdel, hs]; omega) delay
  refine ⟨e, he, fun r t k h2 hk => ?_⟩
  rw [hv r t k, hgl, hdel]
  refine Finset.sum_congr rfl fun d hd => ?_
  rw [Finset.mem_range] at hd
  have hko : 2 * os ≤ k * os := Nat.mul_le_mul_right _ h2
  have hkw : k * os + os ≤ w.size * os := by
    have := Nat.mul_le_mul_right os (show k + 1 ≤ w.size by omega)
    rw [Nat.add_mul, Nat.one_mul] at this
    exact this
  rw [Finset.sum_congr rfl (g := fun _ => 1 / (os : ℂ) * h r t d), Finset.sum_const, Finset.card_range, nsmul_eq_mul]
  · field_simp
  · intro j hj
    rw [Finset.mem_range] at hj
    rw [if_pos ⟨by omega, by rw [hs]; omega⟩, hst, rectangular_characteristics]
    simp [List.getD_eq_getElem?_getD, hj]

/-- C136 fails for channels all paths of which are delayed by a symbol or more: whatever the pulse, every symbol is estimated to be lost. -/
theorem C136_late_fails (w : Waveform ℂ) (p : Pulse ℂ) (os samples : ℕ) (hos : 0 < os) (hw : 0 < w.size) (f : ℕ → ℕ → Csi ℂ) (c : Csi ℂ)
    (hc : f samples samples = c) (hi : c.fmt = .impulse) (hinf : 0 < c.inf)
    (hlen : p.delay / 2 + w.size * os + 1 < c.smp + (characteristics p).length + os)
    (hlate : ∀ r t n d, d < os → c.st r t n d = 0) (delay : ℚ) :
    ∃ e, estimate w p os samples (some f) c.rx w.size delay = .ok e ∧ ∀ r t k, e.val r t k = 0 := by
  obtain ⟨e, he, -, -, -, hv⟩ := C136_estimate w p os samples hos hw f c hc hi hinf hlen delay
  refine ⟨e, he, fun r t k => ?_⟩
  rw [hv r t k]
  refine Finset.sum_eq_zero fun d hd => Finset.sum_eq_zero fun j _ => ?_
  rw [Finset.mem_range] at hd
  rw [hlate r t _ d (by omega)]
  simp

/-- C136 fails for all frames of a drop but the first: a channel of gain `a` during the first frame and `b` during the second is estimated to
have gain `a` for frames of any delay. -/
theorem C136_delay_fails (w : Waveform ℂ) (os : ℕ) (hos : 0 < os) (hw : 0 < w.size) (a b : ℂ) (f : ℕ → ℕ → Csi ℂ)
    (hs : ∀ n m, (f n m).smp = n) (hr : ∀ n m, (f n m).rx = 1)
    (hflat : ∀ n m, Flat (f n m) fun _ _ i => if i < w.size * os then a else b) (delay : ℚ) :
    ∃ e, estimate w (rectangular os) os (w.size * os) (some f) 1 w.size delay = .ok e ∧ ∀ k, 0 < k → k < w.size → e.val 0 0 k = a := by
  obtain ⟨e, he, -, -, -, hv, -⟩ := C136_average_partial w os hos hw f _ rfl (hs _ _) _ (hflat _ _) delay
  rw [hr] at he
  have ho : (os : ℂ) ≠ 0 := by exact_mod_cast hos.ne'
  refine ⟨e, he, fun k h0 hk => ?_⟩
  have hkw : k * os + os ≤ w.size * os := by
    have := Nat.mul_le_mul_right os (show k + 1 ≤ w.size by omega)
    rw [Nat.add_mul, Nat.one_mul] at this
    exact this
  rw [hv 0 0 k h0 hk, Finset.sum_congr rfl (g := fun _ => a), Finset.sum_const, Finset.card_range, nsmul_eq_mul]
  · field_simp
  · intro j _
    rw [if_pos (by omega)]

/-- C136, errors: without a sample of the channel estimation raises RuntimeError, and with as many received streams as the channel has not
ValueError. -/
theorem C136_errors (w : Waveform ℂ) (p : Pulse ℂ) (os samples streams blocks : ℕ) (delay : ℚ) :
    estimate w p os samples none streams blocks delay = .error .runtime ∧
    ∀ f : ℕ → ℕ → Csi ℂ, (f samples samples).fmt = .impulse → 0 < (f samples samples).inf → (f samples samples).rx ≠ streams →
      estimate w p os samples (some f) streams blocks delay = .error .value := by
  refine ⟨rfl, fun f hi hinf hr => ?_⟩
  unfold estimate
  simp only [toImpulse_of _ hi]
  rw [if_neg (by omega), if_pos hr]

/-! ### The hypotheses are met -/

/-- A frame of three symbols. -/
def frame3 : Waveform ℂ := ⟨4, 1, 2, 0, 0, 0, [1], true⟩

/-- A static channel of gain two. -/
def static2 (n _ : ℕ) : Csi ℂ := ⟨.impulse, 1, 1, n, 1, fun _ _ _ d => if d = 0 then 2 else 0, 1, 1⟩

example : frame3.size = 3 := rfl

example : ∃ y rx e, frame3.modulate (rectangular 2) [1, 2, 3] = .ok y ∧ frame3.demodulate (rectangular 2) (y.map ((2 : ℂ) * ·)) = .ok rx ∧
    estimate frame3 (rectangular 2) 2 6 (some static2) 1 3 0 = .ok e ∧ ∀ k < frame3.size, 0 < k ∨ 2 = 1 → e.val 0 0 k = 2 ∧
      (zeroForcing rx ((List.range frame3.size).map (e.val 0 0))).getD k 0 = [1, 2, 3].getD k 0 :=
  C136_static_partial frame3 2 (by norm_num) (by decide) static2 (static2 6 6) rfl rfl 2 (by norm_num)
    ⟨rfl, by decide, fun _ _ _ _ => rfl⟩ 0 rfl [1, 2, 3] rfl

example : ∃ y rx e, frame3.modulate (rectangular 2) [1, 2, 3] = .ok y ∧ frame3.demodulate (rectangular 2) (y.map ((2 : ℂ) * ·)) = .ok rx ∧
    estimate frame3 (rectangular 2) 2 6 (some static2) 1 3 0 = .ok e ∧ e.val 0 0 0 = 1 ∧
    (zeroForcing rx ((List.range frame3.size).map (e.val 0 0))).getD 0 0 = 2 := by
  obtain ⟨y, rx, e, h1, h2, h3, h4, -, h5, -⟩ := C136_first_fails frame3 2 (by norm_num) (by decide) static2 (static2 6 6) rfl rfl 2
    (by norm_num) ⟨rfl, by decide, fun _ _ _ _ => rfl⟩ 0 rfl [1, 2, 3] rfl (by simp)
  exact ⟨y, rx, e, h1, h2, h3, by rw [h4]; norm_num, by rw [h5]; norm_num⟩

example : ∃ e, estimate frame3 (rectangular 2) 2 6
      (some fun n _ => ⟨.impulse, 1, 1, n, 1, fun _ _ n d => if d = 0 then (if n < 2 then 0 else 1) else 0, 1, 1⟩) 1 3 0 = .ok e ∧
    ∀ r t, e.val r t 1 = ((2 / 2 : ℕ) * 0 + ((2 + 1) / 2 : ℕ) * 1) / (2 : ℕ) ∧ e.val r t 1 ≠ 1 :=
  C136_change_fails frame3 2 (by norm_num) (by decide) _ _ rfl rfl 1 (by norm_num) (by decide) 0 1 (by norm_num)
    ⟨rfl, by decide, fun _ _ _ _ => rfl⟩ 0

example : ∃ e, estimate frame3 (frequencyModulated 4 1) 1 12 (some static2) 1 3 0 = .ok e ∧ ‖e.val 0 0 1‖ < 2 := by
  obtain ⟨e, he, h⟩ := C136_chirps_fails frame3 4 1 (by norm_num) (by norm_num) (by decide) static2 (static2 12 12) rfl rfl 2 (by norm_num)
    ⟨rfl, by decide, fun _ _ _ _ => rfl⟩ 0
  exact ⟨e, he, by simpa using h 0 0 1 (by norm_num)⟩

/-- Two paths, one sample apart. -/
example : ∃ e, estimate frame3 (rectangular 2) 2 6
      (some fun n _ => ⟨.impulse, 1, 1, n, 2, fun _ _ _ d => if d = 0 then 1 else 3, 2, 2⟩) 1 3 0 = .ok e ∧ e.val 0 0 2 = 4 := by
  obtain ⟨e, he, h⟩ := C136_paths_partial frame3 2 (by norm_num) (by decide)
    (fun n _ => ⟨.impulse, 1, 1, n, 2, fun _ _ _ d => if d = 0 then 1 else 3, 2, 2⟩) _ rfl rfl rfl (by decide)
    (fun _ _ d => if d = 0 then 1 else 3) (fun _ _ _ _ => rfl) 0
  refine ⟨e, he, ?_⟩
  rw [h 0 0 2 (by norm_num) (by decide)]
  simp [Finset.sum_range_succ]
  norm_num

/-- A single path, delayed by two samples. -/
example : ∃ e, estimate frame3 (rectangular 2) 2 6
      (some fun n _ => ⟨.impulse, 1, 1, n, 3, fun _ _ _ d => if d = 2 then 1 else 0, 3, 3⟩) 1 3 0 = .ok e ∧ ∀ r t k, e.val r t k = 0 :=
  C136_late_fails frame3 (rectangular 2) 2 6 (by norm_num) (by decide) _ _ rfl rfl (by decide)
    (by rw [rectangular_characteristics]; decide)
    (by intro r t n d hd; exact if_neg (by omega)) 0

example (delay : ℚ) : ∃ e, estimate frame3 (rectangular 2) 2 6
      (some fun n _ => ⟨.impulse, 1, 1, n, 1, fun _ _ i d => if d = 0 then (if i < 6 then 1 else 5) else 0, 1, 1⟩) 1 3 delay = .ok e ∧
    ∀ k, 0 < k → k < frame3.size → e.val 0 0 k = 1 :=
  C136_delay_fails frame3 2 (by norm_num) (by decide) 1 5 _ (fun _ _ => rfl) (fun _ _ => rfl)
    (fun _ _ => ⟨rfl, Nat.one_pos, fun _ _ _ _ => rfl⟩) delay

example : estimate frame3 (rectangular 2) 2 6 (some static2) 2 3 0 = .error .value :=
  (C136_errors frame3 (rectangular 2) 2 6 2 3 0).2 static2 rfl (by decide) (by decide)

end Verif.SingleIdeal
