import Verif.Radar.Fmcw
import Mathlib.Analysis.Calculus.Deriv.Pow
import Mathlib.Analysis.Calculus.Deriv.Mul

/-!
# C105: frequency ramps

Model of `simulation/rf/blocks/ramp.py`.  Floats are real numbers; samples exact complex numbers.
-/

namespace Verif.Ramp

open Complex Verif.Signal

noncomputable section

/-- The parameters of `RampGenerator`. -/
structure Params where
  chirps : ℕ
  bandwidth : ℝ
  slope : ℝ
  interval : ℝ

open Classical in
/-- `RampGenerator.__init__`, `ramp.py` 57-60, by its setters 75-80, 88-90, 102-106 and 118-123. -/
def create (chirps : ℤ) (bandwidth slope interval : ℝ) : Except PyErr Params :=
  if chirps < 0 then .error .value
  else if bandwidth ≤ 0 then .error .value
  else if interval ≤ 0 then .error .value
  else .ok ⟨chirps.toNat, bandwidth, slope, interval⟩

open Classical in
/-- A sample of a ramp, `ramp.py` 175-179. -/
def sample (fs bandwidth slope : ℝ) (i : ℕ) : ℂ :=
  let start : ℝ := if 0 < slope then -bandwidth else bandwidth
  let t : ℝ := (i : ℝ) / fs
  exp (((Real.pi * (start * t + slope * t ^ 2) : ℝ) : ℂ) * I)

/-- `num_guarded_chirp_samples`, `ramp.py` 168. -/
def guarded (fs interval : ℝ) : ℤ := truncInt (interval * fs)

/-- `num_chirp_samples`, `ramp.py` 169-170. -/
def active (fs bandwidth slope interval : ℝ) : ℤ := min (guarded fs interval) (truncInt (bandwidth / slope * fs))

open Classical in
/-- `_chirp`, `ramp.py` 151-181.  Numbers of samples may be negative: arrays of a negative length are refused, slices with
a negative end omit as many samples from the end, ranges with a negative end are empty, and an empty array can only be
assigned to an empty slice. -/
def chirp (fs bandwidth slope interval : ℝ) : Except PyErr (List ℂ) :=
  let n := guarded fs interval
  if slope = 0 then .error .zeroDivision
  else if n < 0 then .error .value
  else
    let c := active fs bandwidth slope interval
    if 0 ≤ c then
      .ok ((List.range c.toNat).map (sample fs bandwidth slope) ++ List.replicate (n.toNat - c.toNat) 0)
    else if 0 < n + c then .error .value
    else .ok (List.replicate n.toNat 0)

/-- `_fmcw_frame`, `ramp.py` 183-199. -/
def frame (fs : ℝ) (p : Params) : Except PyErr (List ℂ) :=
  match chirp fs p.bandwidth p.slope p.interval with
  | .error e => .error e
  | .ok x => .ok (List.replicate p.chirps x).flatten

/-! ### Frames -/

/-- C105, configuration. -/
theorem C105_create (chirps : ℤ) (bandwidth slope interval : ℝ) :
    ((0 ≤ chirps ∧ 0 < bandwidth ∧ 0 < interval) →
      create chirps bandwidth slope interval = .ok ⟨chirps.toNat, bandwidth, slope, interval⟩) ∧
    (¬ (0 ≤ chirps ∧ 0 < bandwidth ∧ 0 < interval) → create chirps bandwidth slope interval = .error .value) := by
  constructor
  · rintro ⟨h1, h2, h3⟩
    rw [create, if_neg (by omega), if_neg (not_le.mpr h2), if_neg (not_le.mpr h3)]
  · intro h
    unfold create
    split_ifs with h1 h2 h3
    · rfl
    · rfl
    · rfl
    · exact absurd ⟨by omega, not_le.mp h2, not_le.mp h3⟩ h

theorem truncInt_nonneg {x : ℝ} (h : 0 ≤ x) : truncInt x = ⌊x⌋ := if_pos h

theorem guarded_nonneg {fs interval : ℝ} (hf : 0 < fs) (hi : 0 < interval) : 0 ≤ guarded fs interval := by
  rw [guarded, truncInt_nonneg (by positivity)]
  exact Int.floor_nonneg.mpr (by positivity)

theorem active_nonneg {fs bandwidth slope interval : ℝ} (hf : 0 < fs) (hi : 0 < interval) (hb : 0 < bandwidth)
    (hs : 0 < slope) : 0 ≤ active fs bandwidth slope interval := by
  refine le_min (guarded_nonneg hf hi) ?_
  rw [truncInt_nonneg (by positivity)]
  exact Int.floor_nonneg.mpr (by positivity)

theorem chirp_ok {fs bandwidth slope interval : ℝ} (hf : 0 < fs) (hi : 0 < interval) (hb : 0 < bandwidth)
    (hs : 0 < slope) :
    chirp fs bandwidth slope interval = .ok ((List.range (active fs bandwidth slope interval).toNat).map
      (sample fs bandwidth slope) ++
        List.replicate ((guarded fs interval).toNat - (active fs bandwidth slope interval).toNat) 0) := by
  simp only [chirp, if_neg hs.ne', if_neg (not_lt.mpr (guarded_nonneg hf hi)), if_pos (active_nonneg hf hi hb hs)]

theorem active_le (fs bandwidth slope interval : ℝ) : active fs bandwidth slope interval ≤ guarded fs interval :=
  min_le_left _ _

theorem flatten_replicate_get {α : Type} (x : List α) (c r i : ℕ) (hr : r < c) (hi : i < x.length) :
    (List.replicate c x).flatten[r * x.length + i]? = x[i]? := by
  induction r generalizing c with
  | zero =>
    obtain ⟨c, rfl⟩ : ∃ d, c = d + 1 := ⟨c - 1, by omega⟩
    rw [List.replicate_succ, List.flatten_cons, Nat.zero_mul, Nat.zero_add, List.getElem?_append_left hi]
  | succ r ih =>
    obtain ⟨c, rfl⟩ : ∃ d, c = d + 1 := ⟨c - 1, by omega⟩
    rw [List.replicate_succ, List.flatten_cons, Nat.succ_mul]
    rw [List.getElem?_append_right (by omega)]
    rw [show r * x.length + x.length + i - x.length = r * x.length + i by omega]
    exact ih c (by omega)

/-- C105, frames: a frame consists of equal parts of the samples fitting an interval.  The samples fitting the time the
ramp takes to cross the bandwidth, if it ends before the interval does, have a phase whose rate grows linearly from minus to
plus half the bandwidth; the others are zero. -/
theorem C105_frame (p : Params) (fs : ℝ) (hf : 0 < fs) (hi : 0 < p.interval) (hb : 0 < p.bandwidth) (hs : 0 < p.slope)
    (hT : p.bandwidth / p.slope ≤ p.interval) :
    ∃ (x : List ℂ) (n : ℕ) (φ rate : ℝ → ℝ), frame fs p = .ok x ∧ (n : ℝ) ≤ p.interval * fs ∧ p.interval * fs < n + 1 ∧
      x.length = p.chirps * n ∧
      (∀ t, HasDerivAt φ (2 * Real.pi * rate t) t) ∧ rate 0 = -p.bandwidth / 2 ∧
      rate (p.bandwidth / p.slope) = p.bandwidth / 2 ∧
      (∀ s t, rate t - rate s = p.slope * (t - s)) ∧ φ 0 = 0 ∧
      ∀ r < p.chirps, ∀ i < n,
        ((i : ℝ) + 1 ≤ p.bandwidth / p.slope * fs → x[r * n + i]? = some (exp ((φ (i / fs) : ℝ) * I))) ∧
        (p.bandwidth / p.slope * fs ≤ i → x[r * n + i]? = some 0) := by
  set g := guarded fs p.interval with hg
  set c := active fs p.bandwidth p.slope p.interval with hc
  have hg0 := guarded_nonneg hf hi
  have hc0 := active_nonneg hf hi hb hs
  have hcg : c ≤ g := active_le ..
  have hgf : g = ⌊p.interval * fs⌋ := truncInt_nonneg (by positivity)
  have hcf : c = ⌊p.bandwidth / p.slope * fs⌋ := by
    rw [hc, active, ← hg, truncInt_nonneg (by positivity), hgf]
    exact min_eq_right (Int.floor_le_floor (by nlinarith))
  have hgn : ((g.toNat : ℕ) : ℝ) = (g : ℝ) := by
    have : ((g.toNat : ℕ) : ℤ) = g := Int.toNat_of_nonneg hg0
    exact_mod_cast this
  have hcn : ((c.toNat : ℕ) : ℝ) = (c : ℝ) := by
    have : ((c.toNat : ℕ) : ℤ) = c := Int.toNat_of_nonneg hc0
    exact_mod_cast this
  set one := (List.range c.toNat).map (sample fs p.bandwidth p.slope) ++ List.replicate (g.toNat - c.toNat) 0 with hone
  have hlen : one.length = g.toNat := by
    rw [hone]; simp; omega
  refine ⟨(List.replicate p.chirps one).flatten, g.toNat,
    fun t => Real.pi * (-p.bandwidth * t + p.slope * t ^ 2), fun t => -p.bandwidth / 2 + p.slope * t, ?_, ?_, ?_, ?_, ?_,
    ?_, ?_, ?_, ?_, ?_⟩
  · rw [frame, chirp_ok hf hi hb hs]
  · rw [hgn, hgf]; exact Int.floor_le _
  · rw [hgn, hgf]; exact Int.lt_floor_add_one _
  · rw [List.length_flatten, List.map_replicate, List.sum_replicate, hlen, smul_eq_mul]
  · intro t
    have h1 : HasDerivAt (fun t : ℝ => t ^ 2) (2 * t) t := by simpa using hasDerivAt_pow 2 t
    have h2 := (((hasDerivAt_id t).const_mul (-p.bandwidth)).add (h1.const_mul p.slope)).const_mul Real.pi
    have e : 2 * Real.pi * (-p.bandwidth / 2 + p.slope * t) = Real.pi * (-p.bandwidth * 1 + p.slope * (2 * t)) := by ring
    rw [e]
    exact h2
  · simp
  · field_simp; ring
  · intro s t; ring
  · simp
  · intro r hr i hin
    have hget := flatten_replicate_get one p.chirps r i hr (by omega)
    rw [hlen] at hget
    rw [hget]
    constructor
    · intro hic
      have : i < c.toNat := by
        have h1 : ((i : ℤ) : ℝ) + 1 ≤ p.bandwidth / p.slope * fs := by exact_mod_cast hic
        have h2 : (i : ℤ) + 1 ≤ c := by
          rw [hcf]; apply Int.le_floor.mpr; push_cast; exact_mod_cast hic
        omega
      rw [hone, List.getElem?_append_left (by simpa using this), List.getElem?_map, List.getElem?_range this]
      simp [sample, if_pos hs]
    · intro hic
      have : c.toNat ≤ i := by
        have h2 : (c : ℝ) ≤ i := by rw [hcf]; exact (Int.floor_le _).trans hic
        rw [← hcn] at h2
        exact_mod_cast h2
      rw [hone, List.getElem?_append_right (by simpa using this)]
      simp only [List.length_map, List.length_range]
      rw [List.getElem?_replicate, if_pos (by omega)]

/-- C105, intervals: chirps start in the intervals configured if they last a whole number of samples. -/
theorem C105_interval_partial (p : Params) (fs : ℝ) (hf : 0 < fs) (hi : 0 < p.interval) (hb : 0 < p.bandwidth)
    (hs : 0 < p.slope) (n : ℕ) (hn : p.interval * fs = n) :
    ∃ x, frame fs p = .ok x ∧ (x.length : ℝ) / fs = p.chirps * p.interval ∧
      ∀ r < p.chirps, ∀ i < n, x[r * n + i]? = x[i]? := by
  have hg : guarded fs p.interval = n := by rw [guarded, hn, truncInt_nonneg (by positivity)]; simp
  have hcg := active_le fs p.bandwidth p.slope p.interval
  rw [hg] at hcg
  have hc0 := active_nonneg hf hi hb hs
  set one := (List.range (active fs p.bandwidth p.slope p.interval).toNat).map (sample fs p.bandwidth p.slope) ++
    List.replicate ((guarded fs p.interval).toNat - (active fs p.bandwidth p.slope p.interval).toNat) 0 with hone
  have hlen : one.length = n := by
    rw [hone, hg]; simp; omega
  refine ⟨(List.replicate p.chirps one).flatten, by rw [frame, chirp_ok hf hi hb hs], ?_, ?_⟩
  · rw [List.length_flatten, List.map_replicate, List.sum_replicate, hlen, smul_eq_mul]
    push_cast
    rw [← hn]; field_simp
  · intro r hr i hin
    have h1 := flatten_replicate_get one p.chirps r i hr (by omega)
    have h2 := flatten_replicate_get one p.chirps 0 i (by omega) (by omega)
    rw [hlen] at h1 h2
    rw [h1, ← h2, Nat.zero_mul, Nat.zero_add]

/-- C105 fails for intervals which are not a whole number of samples: they are shortened, and frames with sufficiently many
chirps end earlier than configured by any number of samples. -/
theorem C105_interval_fails (p : Params) (fs : ℝ) (hf : 0 < fs) (hi : 0 < p.interval) (hb : 0 < p.bandwidth)
    (hs : 0 < p.slope) (hn : ∀ n : ℕ, p.interval * fs ≠ n) (lost : ℕ) :
    ∃ chirps x, frame fs { p with chirps := chirps } = .ok x ∧ (x.length : ℝ) + lost < chirps * p.interval * fs := by
  have hg0 := guarded_nonneg hf hi
  have hgf : guarded fs p.interval = ⌊p.interval * fs⌋ := truncInt_nonneg (by positivity)
  have hgn : (((guarded fs p.interval).toNat : ℕ) : ℝ) = (guarded fs p.interval : ℝ) := by
    have : (((guarded fs p.interval).toNat : ℕ) : ℤ) = guarded fs p.interval := Int.toNat_of_nonneg hg0
    exact_mod_cast this
  have hpos : 0 < p.interval * fs - (guarded fs p.interval).toNat := by
    have h1 : (((guarded fs p.interval).toNat : ℕ) : ℝ) ≤ p.interval * fs := by
      rw [hgn, hgf]; exact Int.floor_le _
    rcases h1.lt_or_eq with h | h
    · linarith
    · exact absurd h.symm (hn _)
  obtain ⟨k, hk⟩ := exists_nat_gt ((lost : ℝ) / (p.interval * fs - (guarded fs p.interval).toNat))
  rw [div_lt_iff₀ hpos] at hk
  refine ⟨k, _, by rw [frame, chirp_ok hf hi hb hs], ?_⟩
  have hcg := active_le fs p.bandwidth p.slope p.interval
  have hc0 := active_nonneg hf hi hb hs
  rw [List.length_flatten, List.map_replicate, List.sum_replicate, smul_eq_mul, List.length_append, List.length_map,
    List.length_range, List.length_replicate, Nat.add_sub_cancel' (by omega)]
  push_cast
  linarith

/-- C105 fails for ramps which take longer than the interval: they are cut off, without an error, below the frequency
configured. -/
theorem C105_short_fails (p : Params) (fs : ℝ) (hf : 0 < fs) (hi : 0 < p.interval) (hb : 0 < p.bandwidth)
    (hs : 0 < p.slope) (hT : p.interval < p.bandwidth / p.slope) :
    ∃ x, frame fs p = .ok x ∧ (x.length : ℝ) ≤ p.chirps * p.interval * fs ∧ (∀ z ∈ x, z ≠ 0) ∧
      ∀ t ≤ p.interval, -p.bandwidth / 2 + p.slope * t < p.bandwidth / 2 := by
  have hg0 := guarded_nonneg hf hi
  have hgf : guarded fs p.interval = ⌊p.interval * fs⌋ := truncInt_nonneg (by positivity)
  have hgn : (((guarded fs p.interval).toNat : ℕ) : ℝ) = (guarded fs p.interval : ℝ) := by
    have : (((guarded fs p.interval).toNat : ℕ) : ℤ) = guarded fs p.interval := Int.toNat_of_nonneg hg0
    exact_mod_cast this
  have hc : active fs p.bandwidth p.slope p.interval = guarded fs p.interval := by
    rw [active, hgf, truncInt_nonneg (by positivity)]
    exact min_eq_left (Int.floor_le_floor (by nlinarith))
  refine ⟨_, by rw [frame, chirp_ok hf hi hb hs], ?_, ?_, ?_⟩
  · rw [List.length_flatten, List.map_replicate, List.sum_replicate, smul_eq_mul, hc, List.length_append, List.length_map,
      List.length_range, List.length_replicate, Nat.sub_self, Nat.add_zero]
    push_cast
    rw [mul_assoc]
    refine mul_le_mul_of_nonneg_left ?_ (by positivity)
    rw [hgn, hgf]; exact Int.floor_le _
  · intro z hz
    obtain ⟨l, hl, hz⟩ := List.mem_flatten.mp hz
    rw [List.eq_of_mem_replicate hl, hc, Nat.sub_self, List.replicate_zero, List.append_nil] at hz
    obtain ⟨i, -, rfl⟩ := List.mem_map.mp hz
    exact Complex.exp_ne_zero _
  · intro t ht
    rw [lt_div_iff₀ hs] at hT
    nlinarith

/-- C105 fails for falling ramps, accepted by the setter and considered when computing samples: no sample is ever different
from zero, and if the interval is longer than the ramp an error is raised. -/
theorem C105_falling_fails (p : Params) (fs : ℝ) (hf : 0 < fs) (hi : 0 < p.interval) (hb : 0 < p.bandwidth)
    (hs : p.slope < 0) :
    (p.bandwidth / |p.slope| * fs + 1 ≤ p.interval * fs → 1 ≤ p.bandwidth / |p.slope| * fs → frame fs p = .error .value) ∧
    ∀ x, frame fs p = .ok x → ∀ z ∈ x, z = 0 := by
  have hg0 := guarded_nonneg hf hi
  have hgf : guarded fs p.interval = ⌊p.interval * fs⌋ := truncInt_nonneg (by positivity)
  have hq : p.bandwidth / p.slope * fs = -(p.bandwidth / |p.slope| * fs) := by
    rw [abs_of_neg hs, div_neg]; ring
  have hpos : 0 < p.bandwidth / |p.slope| * fs := by
    have : 0 < |p.slope| := abs_pos.mpr hs.ne
    positivity
  have ht : truncInt (p.bandwidth / p.slope * fs) = -⌊p.bandwidth / |p.slope| * fs⌋ := by
    rw [hq, truncInt, if_neg (by linarith), Int.ceil_neg]
  have hfl : 0 ≤ ⌊p.bandwidth / |p.slope| * fs⌋ := Int.floor_nonneg.mpr hpos.le
  have hc : active fs p.bandwidth p.slope p.interval = -⌊p.bandwidth / |p.slope| * fs⌋ := by
    rw [active, ht]; exact min_eq_right (by omega)
  constructor
  · intro h1 h2
    have h3 : 1 ≤ ⌊p.bandwidth / |p.slope| * fs⌋ := Int.le_floor.mpr (by push_cast; exact h2)
    have h4 : ⌊p.bandwidth / |p.slope| * fs⌋ + 1 ≤ ⌊p.interval * fs⌋ := by
      refine Int.le_floor.mpr ?_
      push_cast
      have := Int.floor_le (p.bandwidth / |p.slope| * fs)
      linarith
    simp only [frame, chirp, if_neg hs.ne, if_neg (not_lt.mpr hg0), hc]
    rw [if_neg (by omega), if_pos (by omega)]
  · intro x hx z hz
    simp only [frame, chirp, if_neg hs.ne, if_neg (not_lt.mpr hg0), hc] at hx
    split at hx
    · cases hx
    · rename_i y hy
      cases hx
      obtain ⟨l, hl, hz⟩ := List.mem_flatten.mp hz
      rw [List.eq_of_mem_replicate hl] at hz
      split_ifs at hy with h1 h2
      · have h0 : (-⌊p.bandwidth / |p.slope| * fs⌋).toNat = 0 := by omega
        cases hy
        rw [h0, List.range_zero, List.map_nil, List.nil_append] at hz
        exact List.eq_of_mem_replicate hz
      · cases hy
        exact List.eq_of_mem_replicate hz

/-- C105 fails for slopes of zero, accepted by the setter. -/
theorem C105_flat_fails (p : Params) (fs : ℝ) (hi : 0 < p.interval) (hb : 0 < p.bandwidth) (hs : p.slope = 0) :
    create p.chirps p.bandwidth p.slope p.interval = .ok p ∧ frame fs p = .error .zeroDivision := by
  constructor
  · rw [(C105_create p.chirps p.bandwidth p.slope p.interval).1 ⟨by positivity, hb, hi⟩]
    simp
  · simp only [frame, chirp, if_pos hs]

/-- C105, waveforms: frames equal those of the radar waveform of the same bandwidth, duration, interval and number of
chirps, if they last whole numbers of samples. -/
theorem C105_waveform_partial (w : FmcwRadar.Fmcw) (B : ℝ) (hB : 0 < B) (os a b : ℕ) (hos : 0 < os)
    (hd : 0 < w.duration) (hle : w.duration ≤ w.interval) (ha : w.duration * (B * os) = a) (hb : w.interval * (B * os) = b) :
    ∃ x, frame (B * os) ⟨w.chirps, B, B / w.duration, w.interval⟩ = .ok x ∧ w.ping B os = .ok x := by
  have hos' : (0 : ℝ) < os := by exact_mod_cast hos
  have hf : 0 < B * os := by positivity
  have hi : 0 < w.interval := by linarith
  have hs : 0 < B / w.duration := by positivity
  have hab : a ≤ b := by
    have : (a : ℝ) ≤ b := by rw [← ha, ← hb]; nlinarith
    exact_mod_cast this
  have hg : guarded (B * os) w.interval = b := by
    rw [guarded, hb, truncInt_nonneg (by positivity)]; simp
  have hq : B / (B / w.duration) * (B * os) = a := by rw [← ha]; field_simp
  have hc : active (B * os) B (B / w.duration) w.interval = a := by
    rw [active, hg, hq, truncInt_nonneg (by positivity)]
    simp [hab]
  refine ⟨_, by rw [frame, chirp_ok hf hi hB hs], ?_⟩
  have hz : truncInt ((w.interval - w.duration) * B * os) = ((b - a : ℕ) : ℤ) := by
    have : (w.interval - w.duration) * B * os = ((b - a : ℕ) : ℝ) := by
      rw [Nat.cast_sub hab, ← ha, ← hb]; ring
    rw [this, truncInt_nonneg (by positivity)]; simp
  have hn : w.numSamples B os = a := by
    rw [FmcwRadar.Fmcw.numSamples, ha, truncInt_nonneg (by positivity)]; simp
  rw [FmcwRadar.Fmcw.ping, FmcwRadar.Fmcw.pulse]
  simp only [hz]
  rw [if_neg (by omega)]
  simp only [FmcwRadar.Fmcw.chirp, hn, hg, hc, Int.toNat_natCast]
  congr 3
  congr 1
  refine List.map_congr_left fun i _ => ?_
  rw [FmcwRadar.Fmcw.sample, sample]
  simp only [if_pos hs]

/-! ### Caches -/

/-- Entries of the cache of `_fmcw_frame`, by block and arguments. -/
abbrev Cache := List ((ℕ × ℝ × Params) × List ℂ)

open Classical in
/-- `_fmcw_frame` with its cache, `ramp.py` 183-186: errors are not kept. -/
def cached (c : Cache) (block : ℕ) (fs : ℝ) (p : Params) : Cache × Except PyErr (List ℂ) :=
  match c.find? fun e => e.1 = (block, fs, p) with
  | some e => (c, .ok e.2)
  | none =>
    match frame fs p with
    | .error e => (c, .error e)
    | .ok x => (((block, fs, p), x) :: c, .ok x)

/-- What may happen to the generators: parameters are changed, or a signal is propagated at a sampling rate. -/
inductive Event where
  | set (block : ℕ) (p : Params)
  | propagate (block : ℕ) (fs : ℝ)

/-- The outputs of a history, from given parameters and cache; `_propagate`, `ramp.py` 201-211. -/
def run : (ℕ → Params) → Cache → List Event → List (Except PyErr (List ℂ))
  | _, _, [] => []
  | ps, c, .set b p :: es => run (fun k => if k = b then p else ps k) c es
  | ps, c, .propagate b fs :: es => (cached c b fs (ps b)).2 :: run ps (cached c b fs (ps b)).1 es

/-- The frames of the parameters configured at each propagation of a history. -/
def current : (ℕ → Params) → List Event → List (ℝ × Params)
  | _, [] => []
  | ps, .set b p :: es => current (fun k => if k = b then p else ps k) es
  | ps, .propagate b fs :: es => (fs, ps b) :: current ps es

/-- C105, caches: whatever was generated before and however parameters were changed, the frames generated are those of
the parameters configured. -/
theorem C105_cache (ps : ℕ → Params) (es : List Event) :
    run ps [] es = (current ps es).map fun q => frame q.1 q.2 := by
  have key : ∀ (es : List Event) (ps : ℕ → Params) (c : Cache), (∀ e ∈ c, frame e.1.2.1 e.1.2.2 = .ok e.2) →
      run ps c es = (current ps es).map fun q => frame q.1 q.2 := by
    intro es
    induction es with
    | nil => intros; rfl
    | cons e es ih =>
      intro ps c hc
      cases e with
      | set b p => exact ih _ c hc
      | propagate b fs =>
        have h : (∀ e ∈ (cached c b fs (ps b)).1, frame e.1.2.1 e.1.2.2 = .ok e.2) ∧
            (cached c b fs (ps b)).2 = frame fs (ps b) := by
          unfold cached
          split
          · rename_i v hv
            refine ⟨hc, ?_⟩
            have h1 := hc v (List.mem_of_find?_eq_some hv)
            have h2 := List.find?_some hv
            simp only [decide_eq_true_eq] at h2
            rw [h2] at h1
            exact h1.symm
          · split
            · rename_i e he
              exact ⟨hc, he.symm⟩
            · rename_i x hx
              refine ⟨fun e he => ?_, hx.symm⟩
              rcases List.mem_cons.mp he with rfl | he
              · exact hx
              · exact hc e he
        simp only [run, current, List.map_cons, h.2, ih _ _ h.1]
  exact key es ps [] (by simp)

/-! ### Storage -/

/-- A ramp generator with its noise level, as a power per bandwidth, and seed. -/
structure Block where
  params : Params
  noise : ℝ
  seed : Option ℤ

/-- `serialize` and `Deserialize`, `ramp.py` 213-231; blocks without a noise level have none, `rf/block.py` 105-107. -/
def restore (b : Block) : Except PyErr Block :=
  match create b.params.chirps b.params.bandwidth b.params.slope b.params.interval with
  | .error e => .error e
  | .ok p => .ok ⟨p, 0, b.seed⟩

/-- C105, storage: restored generators have the parameters and the seed of those stored. -/
theorem C105_restore_partial (chirps : ℤ) (bandwidth slope interval noise : ℝ) (seed : Option ℤ) (p : Params)
    (h : create chirps bandwidth slope interval = .ok p) :
    ∃ b, restore ⟨p, noise, seed⟩ = .ok b ∧ b.params = p ∧ b.seed = seed := by
  have hv : 0 ≤ chirps ∧ 0 < bandwidth ∧ 0 < interval := by
    by_contra hn
    rw [(C105_create _ _ _ _).2 hn] at h
    cases h
  rw [(C105_create _ _ _ _).1 hv] at h
  cases h
  refine ⟨⟨⟨chirps.toNat, bandwidth, slope, interval⟩, 0, seed⟩, ?_, rfl, rfl⟩
  rw [restore, (C105_create _ _ _ _).1 ⟨by positivity, hv.2.1, hv.2.2⟩]
  simp [max_eq_left hv.1]

/-- C105 fails for the noise of generators, which is not stored. -/
theorem C105_restore_fails (p : Params) (noise : ℝ) (hn : noise ≠ 0) (seed : Option ℤ) (b : Block)
    (h : restore ⟨p, noise, seed⟩ = .ok b) : b.noise ≠ noise := by
  unfold restore at h
  split at h
  · cases h
  · cases h
    exact hn.symm

/-- Two rising ramps of bandwidth two and slope two within intervals of two seconds, sampled four times a second. -/
example : ∃ x, frame 4 ⟨2, 2, 2, 2⟩ = .ok x ∧ x.length = 16 ∧ x[0]? = some 1 ∧ x[5]? = some 0 ∧ x[8]? = some 1 := by
  have hg : guarded 4 2 = 8 := by rw [guarded, truncInt_nonneg (by norm_num)]; norm_num
  have hc : active 4 2 2 2 = 4 := by
    rw [active, hg, truncInt_nonneg (by norm_num)]; norm_num
  refine ⟨_, by rw [frame, chirp_ok (by norm_num) (by norm_num) (by norm_num) (by norm_num)], ?_⟩
  rw [hg, hc]
  simp [List.range_succ, List.replicate, sample]

end

end Verif.Ramp
