import Verif.Radar.Operator

/-!
# C95: matched filters of joint communication and sensing

`MatchedFilterJcas`, `jcas/matched_filtering.py` 38-353, and the parts of `DuplexJCASOperator` (`jcas/jcas.py`) it uses.
Parameters are real numbers, samples complex numbers.
-/

namespace Verif.MatchedFilter

open Verif.FmcwRadar Verif.Radar Verif.RadarOperator Verif.Signal
open Complex (exp I)

/-- Attributes of the operator; `last` is the transmission cached by `notify_transmit_callbacks` (132-139), by streams. -/
structure Jcas where
  maxRange : ℝ
  maxVelocity : ℝ
  velocityResolution : ℝ
  minRange : ℝ
  beamformer : Option Beamformer
  detector : Option (Cube ℝ → Except PyErr (List (Point ℝ)))
  last : Option (List (List ℂ))

open Classical in
/-- The constructor and its setters, `jcas/matched_filtering.py` 109-126, 292-297, 309-314 and 326-331, `radar/radar.py`
425-430. -/
noncomputable def create (maxRange maxVelocity velocityResolution minRange : ℝ) (beamformer : Option Beamformer)
    (detector : Option (Cube ℝ → Except PyErr (List (Point ℝ)))) : Except PyErr Jcas :=
  if minRange < 0 then .error .value
  else if maxRange ≤ 0 then .error .value
  else if maxVelocity < 0 then .error .value
  else if velocityResolution ≤ 0 then .error .value
  else .ok ⟨maxRange, maxVelocity, velocityResolution, minRange, beamformer, detector, none⟩

/-- `notify_transmit_callbacks`, `jcas/matched_filtering.py` 132-139. -/
def Jcas.transmitted (o : Jcas) (tx : List (List ℂ)) : Jcas := { o with last := some tx }

/-- One output of `scipy.signal.correlate` of two vectors in the mode `valid`. -/
noncomputable def corr (x y : List ℂ) (k : ℕ) : ℂ :=
  ∑ l ∈ Finset.range y.length, x.getD (k + l) 0 * (starRingEnd ℂ) (y.getD l 0)

/-- `scipy.signal.correlate` of two matrices in the mode `valid`, `jcas/matched_filtering.py` 222: number of rows and values.
Rows of the first have `n` samples, those of the second `m ≤ n`.  The second must not exceed the first in one dimension only.
Empty arrays yield a vector, the slices of which raise an `IndexError`; if the first has fewer rows and no more columns, the
arguments are exchanged, of which only the shape is modelled, since the columns are dropped then. -/
noncomputable def correlate (xs ys : List (List ℂ)) (n m : ℕ) : Except PyErr (ℕ × (ℕ → ℕ → ℂ)) :=
  if xs.length = 0 ∨ ys.length = 0 ∨ m = 0 then .error .index
  else if ys.length ≤ xs.length then
    .ok (xs.length - ys.length + 1, fun a k => ∑ t ∈ Finset.range ys.length, corr (xs.getD (a + t) []) (ys.getD t []) k)
  else if n = m then .ok (ys.length - xs.length + 1, fun _ _ => 0)
  else .error .value

/-- `range_resolution`, `jcas/matched_filtering.py` 251-267. -/
noncomputable def resolution (fs : ℝ) : ℝ := light / (2 * fs)

/-- Number of samples until the maximum range, `jcas/matched_filtering.py` 156-157. -/
noncomputable def Jcas.propagated (o : Jcas) (fs : ℝ) : ℕ := (truncInt (o.maxRange / resolution fs)).toNat

/-- Number of Doppler bins, `jcas/matched_filtering.py` 202. -/
noncomputable def Jcas.numVelocities (o : Jcas) : ℕ := (truncInt (2 * o.maxVelocity / o.velocityResolution)).toNat + 1

/-- A value of the `np.linspace` of velocities, `jcas/matched_filtering.py` 199-204; a single one is the start. -/
noncomputable def Jcas.velocity (o : Jcas) (d : ℕ) : ℝ :=
  if o.numVelocities = 1 then -o.maxVelocity else -o.maxVelocity + d * (2 * o.maxVelocity / ((o.numVelocities : ℝ) - 1))

/-- `doppler_bins`, `jcas/matched_filtering.py` 197-206. -/
noncomputable def Jcas.dopplerBins (o : Jcas) (fc : ℝ) : List ℝ :=
  (List.range o.numVelocities).map fun d => fc * o.velocity d / light

/-- `doppler_shifted_samples` of one row, `jcas/matched_filtering.py` 213-219. -/
noncomputable def shifted (f fs : ℝ) (row : List ℂ) : List ℂ :=
  (List.range row.length).map fun n => row.getD n 0 * exp (4 * I * Real.pi * f * n / fs)

/-- `transmitted_samples`, `jcas/matched_filtering.py` 176-195; `resp` is the phase response of the transmit antennas. -/
noncomputable def sent (resp : List ℝ → List ℂ) (angles : List (List ℝ)) (tx : List (List ℂ)) : List (List ℂ) :=
  if tx.length > 1 then
    angles.map fun a => (List.range (tx.headD []).length).map fun n =>
      ∑ m ∈ Finset.range tx.length, (starRingEnd ℂ) ((resp a).getD m 0) * (tx.getD m []).getD n 0
  else [tx.headD []]

/-- First range bin, `jcas/matched_filtering.py` 235. -/
noncomputable def Jcas.minBin (o : Jcas) (fs : ℝ) : ℕ := ⌈2 * o.minRange / resolution fs⌉.toNat

/-- `_receive`, `jcas/matched_filtering.py` 145-249, of a signal given by its streams.  `comm` is the outcome of receiving as a
modem.  Beamformers keep the number of samples.  All Doppler bins are correlated with arrays of the same shape; a single row is
written to all angles. -/
noncomputable def Jcas.receive (o : Jcas) (comm : Except PyErr Unit) (resp : List ℝ → List ℂ) (streams : List (List ℂ))
    (fs fc : ℝ) : Except PyErr (Cube ℝ × Option (List (Point ℝ))) :=
  match o.last with
  | none => .error .runtime
  | some tx =>
    match comm with
    | .error e => .error e
    | .ok () =>
      let P := o.propagated fs
      let m := (tx.headD []).length
      match beamform o.beamformer (streams.map (fit (m + P))) with
      | .error e => .error e
      | .ok (angles, lines) =>
        let ys := sent resp angles tx
        match correlate lines ys (m + P) m with
        | .error e => .error e
        | .ok (rows, _) =>
          if rows = angles.length ∨ rows = 1 then
            let value := fun (a d k : ℕ) =>
              match correlate lines (ys.map (shifted ((o.dopplerBins fc).getD d 0) fs)) (m + P) m with
              | .ok (_, c) => ‖c (if rows = angles.length then a else 0) k‖ ^ 2 / (m : ℝ)
              | .error _ => 0
            let b := o.minBin fs
            match mkCube ⟨[angles.length, o.numVelocities, P - b], fun
                | [a, d, k] => value a d (b + k)
                | _ => 0⟩ (some angles) (some (o.dopplerBins fc))
                (some ((List.range (P - b)).map fun (i : ℕ) => ((b + i : ℕ) : ℝ) * resolution fs)) fc with
            | .error e => .error e
            | .ok cube =>
              match o.detector with
              | none => .ok (cube, none)
              | some d =>
                match d cube with
                | .error e => .error e
                | .ok cloud => .ok (cube, some cloud)
          else .error .value

theorem getD_none {α : Type} (l : List α) (x : α) (n : ℕ) (h : l.length ≤ n) : l.getD n x = x := by
  rw [List.getD_eq_getElem?_getD, List.getElem?_eq_none h, Option.getD_none]

/-! ### Configuration -/

/-- C95, configuration: exactly positive maximum ranges and velocity resolutions and non-negative velocities and minimum ranges
are accepted, and a fresh operator receives nothing. -/
theorem C95_configuration (maxRange maxVelocity velocityResolution minRange : ℝ) (bf : Option Beamformer)
    (det : Option (Cube ℝ → Except PyErr (List (Point ℝ)))) :
    ((0 < maxRange ∧ 0 ≤ maxVelocity ∧ 0 < velocityResolution ∧ 0 ≤ minRange) →
      ∃ o, create maxRange maxVelocity velocityResolution minRange bf det = .ok o ∧ o.maxRange = maxRange ∧
        o.maxVelocity = maxVelocity ∧ o.velocityResolution = velocityResolution ∧ o.minRange = minRange ∧ o.beamformer = bf ∧
        o.detector = det ∧ ∀ comm resp streams fs fc, o.receive comm resp streams fs fc = .error .runtime) ∧
    (¬(0 < maxRange ∧ 0 ≤ maxVelocity ∧ 0 < velocityResolution ∧ 0 ≤ minRange) →
      create maxRange maxVelocity velocityResolution minRange bf det = .error .value) := by
  unfold create
  constructor
  · rintro ⟨h1, h2, h3, h4⟩
    rw [if_neg (not_lt.mpr h4), if_neg (not_le.mpr h1), if_neg (not_lt.mpr h2), if_neg (not_le.mpr h3)]
    exact ⟨_, rfl, rfl, rfl, rfl, rfl, rfl, rfl, fun _ _ _ _ _ => rfl⟩
  · intro h
    split
    · rfl
    · split
      · rfl
      · split
        · rfl
        · rw [if_pos]
          by_contra h'
          push Not at h'
          rename_i a b c
          exact h ⟨not_le.mp b, not_lt.mp c, h', not_lt.mp a⟩

/-! ### Maxima of correlations -/

theorem corr_norm_lt_lag (a : ℕ → ℝ) (ha : ∀ n, 0 ≤ a n) (N k k' : ℕ) (hz : ∀ n, N ≤ n → a n = 0) (h0 : 0 < a 0)
    (hl : 0 < a (N - 1)) (hN : 0 < N) (hk : k' ≠ k) :
    ∑ l ∈ Finset.range N, (if k ≤ k' + l then a (k' + l - k) else 0) * a l < ∑ l ∈ Finset.range N, a l ^ 2 := by
  have hsq : ∑ l ∈ Finset.range N, (if k ≤ k' + l then a (k' + l - k) else 0) ^ 2 < ∑ l ∈ Finset.range N, a l ^ 2 := by
    rcases Nat.lt_or_gt_of_ne hk with h | h
    · obtain ⟨ε, rfl⟩ : ∃ ε, k = k' + ε := ⟨k - k', by omega⟩
      have hε : 0 < ε := by omega
      have hsplit : ∀ M, ∑ l ∈ Finset.range M, (if k' + ε ≤ k' + l then a (k' + l - (k' + ε)) else 0) ^ 2 =
          ∑ l ∈ Finset.range (M - ε), a l ^ 2 := by
        intro M
        induction M with
        | zero => simp
        | succ M ih =>
          rw [Finset.sum_range_succ, ih]
          by_cases hM : ε ≤ M
          · rw [if_pos (by omega), show M + 1 - ε = M - ε + 1 by omega, Finset.sum_range_succ,
              show k' + M - (k' + ε) = M - ε by omega]
          · rw [if_neg (by omega), show M + 1 - ε = M - ε by omega]
            simp
      rw [hsplit]
      refine Finset.sum_lt_sum_of_subset (i := N - 1) (Finset.range_mono (by omega)) (Finset.mem_range.mpr (by omega)) ?_ (by positivity)
        (fun j _ _ => sq_nonneg _)
      rw [Finset.mem_range]
      omega
    · obtain ⟨δ, rfl⟩ : ∃ δ, k' = k + δ := ⟨k' - k, by omega⟩
      have hδ : 0 < δ := by omega
      have h1 : ∑ l ∈ Finset.range N, (if k ≤ k + δ + l then a (k + δ + l - k) else 0) ^ 2 =
          ∑ l ∈ Finset.range N, a (δ + l) ^ 2 := by
        refine Finset.sum_congr rfl fun l _ => ?_
        rw [if_pos (by omega), show k + δ + l - k = δ + l by omega]
      have h2 := Finset.sum_range_add (fun l => a l ^ 2) δ N
      have h3 := Finset.sum_range_add (fun l => a l ^ 2) N δ
      have h4 : ∑ l ∈ Finset.range δ, a (N + l) ^ 2 = 0 := by
        refine Finset.sum_eq_zero fun l _ => ?_
        rw [hz _ (by omega)]
        norm_num
      have h5 : 0 < ∑ l ∈ Finset.range δ, a l ^ 2 :=
        Finset.sum_pos' (fun l _ => sq_nonneg _) ⟨0, Finset.mem_range.mpr hδ, by positivity⟩
      rw [h1]
      rw [Nat.add_comm N δ] at h3
      linarith
  have hamgm : ∀ l, (if k ≤ k' + l then a (k' + l - k) else 0) * a l ≤
      ((if k ≤ k' + l then a (k' + l - k) else 0) ^ 2 + a l ^ 2) / 2 := by
    intro l
    nlinarith [sq_nonneg ((if k ≤ k' + l then a (k' + l - k) else 0) - a l)]
  calc _ ≤ ∑ l ∈ Finset.range N, ((if k ≤ k' + l then a (k' + l - k) else 0) ^ 2 + a l ^ 2) / 2 :=
        Finset.sum_le_sum fun l _ => hamgm l
    _ = (∑ l ∈ Finset.range N, (if k ≤ k' + l then a (k' + l - k) else 0) ^ 2 + ∑ l ∈ Finset.range N, a l ^ 2) / 2 := by
        rw [← Finset.sum_div, Finset.sum_add_distrib]
    _ < _ := by linarith

theorem turn_norm_lt (c : ℕ → ℝ) (hc : ∀ n, 0 ≤ c n) (h0 : 0 < c 0) (h1 : 0 < c 1) (N : ℕ) (hN : 2 ≤ N) (z : ℂ) (hz : ‖z‖ = 1)
    (hne : z ≠ 1) : ‖∑ l ∈ Finset.range N, (c l : ℂ) * z ^ l‖ < ∑ l ∈ Finset.range N, c l := by
  have hzz : z.re * z.re + z.im * z.im = 1 := by
    rw [← Complex.normSq_apply, Complex.normSq_eq_norm_sq, hz]
    norm_num
  have hre : z.re < 1 := by
    rcases lt_or_ge z.re 1 with h | h
    · exact h
    · exfalso
      apply hne
      have h2 : z.re = 1 := by nlinarith [mul_self_nonneg z.im]
      have h3 : z.im = 0 := by
        have : z.im * z.im = 0 := by rw [h2] at hzz; linarith
        exact mul_self_eq_zero.mp this
      exact Complex.ext h2 h3
  have hlt : ‖(c 0 : ℂ) + c 1 * z‖ < c 0 + c 1 := by
    have hsq : ‖(c 0 : ℂ) + c 1 * z‖ ^ 2 < (c 0 + c 1) ^ 2 := by
      rw [← Complex.normSq_eq_norm_sq, Complex.normSq_apply]
      simp only [Complex.add_re, Complex.ofReal_re, Complex.mul_re, Complex.ofReal_im, zero_mul, sub_zero, Complex.add_im,
        Complex.mul_im, add_zero, zero_add]
      have : (c 0 + c 1 * z.re) * (c 0 + c 1 * z.re) + c 1 * z.im * (c 1 * z.im) =
          c 0 ^ 2 + 2 * (c 0 * c 1) * z.re + c 1 ^ 2 * (z.re * z.re + z.im * z.im) := by ring
      rw [this, hzz]
      have := mul_pos h0 h1
      nlinarith
    exact lt_of_pow_lt_pow_left₀ 2 (by linarith) hsq
  obtain ⟨M, rfl⟩ : ∃ M, N = 2 + M := ⟨N - 2, by omega⟩
  rw [Finset.sum_range_add, Finset.sum_range_add]
  simp only [Finset.sum_range_succ, Finset.sum_range_zero, zero_add, pow_zero, pow_one, mul_one]
  refine (norm_add_le _ _).trans_lt (add_lt_add_of_lt_of_le hlt ((norm_sum_le _ _).trans (Finset.sum_le_sum fun l _ => ?_)))
  rw [norm_mul, norm_pow, hz, one_pow, mul_one, Complex.norm_real, Real.norm_of_nonneg (hc _)]

/-! ### Targets -/

theorem numVelocities_pos (o : Jcas) : 0 < o.numVelocities := Nat.succ_pos _

theorem shifted_length (f fs : ℝ) (row : List ℂ) : (shifted f fs row).length = row.length := by simp [shifted]

theorem shifted_getD (f fs : ℝ) (row : List ℂ) (n : ℕ) : (shifted f fs row).getD n 0 = row.getD n 0 * exp (4 * I * Real.pi * f * n / fs) := by
  unfold shifted
  by_cases h : n < row.length
  · rw [List.getD_eq_getElem?_getD, List.getElem?_map, List.getElem?_range h]
    rfl
  · rw [getD_none _ _ _ (by simp; omega), getD_none _ _ _ (by omega), zero_mul]

/-- What is received of one stream transmitted and one stream received. -/
theorem receive_single (o : Jcas) (tx : List ℂ) (hl : o.last = some [tx]) (htx : 0 < tx.length) (hb : o.beamformer = none)
    (resp : List ℝ → List ℂ) (signal : List ℂ) (fs fc : ℝ) (hfc : 0 ≤ fc) :
    ∃ cube : Cube ℝ, (o.receive (.ok ()) resp [signal] fs fc = match o.detector with
        | none => .ok (cube, none)
        | some d => match d cube with
          | .error e => .error e
          | .ok cloud => .ok (cube, some cloud)) ∧
      cube.na = 1 ∧ cube.nb = o.numVelocities ∧ cube.nc = o.propagated fs - o.minBin fs ∧ cube.angle = [[0, 0]] ∧
      cube.doppler = o.dopplerBins fc ∧ cube.fc = fc ∧
      cube.range = (List.range (o.propagated fs - o.minBin fs)).map (fun (i : ℕ) => ((o.minBin fs + i : ℕ) : ℝ) * resolution fs) ∧
      ∀ d k, cube.data (0, d, k) = ‖corr (fit (tx.length + o.propagated fs) signal)
        (shifted ((o.dopplerBins fc).getD d 0) fs tx) (o.minBin fs + k)‖ ^ 2 / (tx.length : ℝ) := by
  unfold Jcas.receive
  rw [hl, hb]
  dsimp only
  unfold beamform
  simp only [List.map_cons, List.map_nil, List.length_singleton, gt_iff_lt, lt_irrefl, if_false]
  unfold sent
  simp only [List.length_singleton, gt_iff_lt, lt_irrefl, if_false, List.headD_cons, List.map_cons, List.map_nil]
  unfold correlate
  simp only [List.length_singleton, one_ne_zero, htx.ne', or_self, if_false, le_refl, if_true]
  unfold mkCube
  dsimp only
  rw [if_neg (by simp), if_neg (by simp [Jcas.dopplerBins]), if_neg (by simp), if_neg (not_lt.mpr hfc)]
  refine ⟨_, rfl, rfl, rfl, rfl, rfl, rfl, rfl, rfl, fun d k => ?_⟩
  simp

/-- Velocities of distinct bins differ by less than twice the maximum. -/
theorem velocity_ne (o : Jcas) (hv : 0 < o.maxVelocity ∨ o.numVelocities = 1) (d d' : ℕ) (hd : d < o.numVelocities) (hd' : d' < o.numVelocities)
    (h : d' ≠ d) : o.velocity d - o.velocity d' ≠ 0 ∧ |o.velocity d - o.velocity d'| ≤ 2 * o.maxVelocity := by
  have h1 : o.numVelocities ≠ 1 := by omega
  have hvel : 0 < o.maxVelocity := hv.resolve_right h1
  have hn : (0 : ℝ) < (o.numVelocities : ℝ) - 1 := by
    have : (2 : ℝ) ≤ o.numVelocities := by
      have : 2 ≤ o.numVelocities := by omega
      exact_mod_cast this
    linarith
  unfold Jcas.velocity
  rw [if_neg h1, if_neg h1]
  have he : -o.maxVelocity + d * (2 * o.maxVelocity / ((o.numVelocities : ℝ) - 1)) -
      (-o.maxVelocity + d' * (2 * o.maxVelocity / ((o.numVelocities : ℝ) - 1))) =
      ((d : ℝ) - d') * (2 * o.maxVelocity / ((o.numVelocities : ℝ) - 1)) := by ring
  rw [he]
  have hstep : 0 < 2 * o.maxVelocity / ((o.numVelocities : ℝ) - 1) := by positivity
  have hdd : (d : ℝ) - d' ≠ 0 := by
    rw [sub_ne_zero]
    exact_mod_cast h.symm
  refine ⟨mul_ne_zero hdd hstep.ne', ?_⟩
  rw [abs_mul, abs_of_pos hstep, ← mul_div_assoc, div_le_iff₀ hn, mul_comm]
  refine mul_le_mul_of_nonneg_left ?_ (by linarith)
  have hdr : (d : ℝ) ≤ (o.numVelocities : ℝ) - 1 := by
    have : (d : ℝ) + 1 ≤ o.numVelocities := by exact_mod_cast hd
    linarith
  have hdr' : (d' : ℝ) ≤ (o.numVelocities : ℝ) - 1 := by
    have : (d' : ℝ) + 1 ≤ o.numVelocities := by exact_mod_cast hd'
    linarith
  rw [abs_le]
  constructor
  · have : (0 : ℝ) ≤ d := Nat.cast_nonneg d
    linarith
  · have : (0 : ℝ) ≤ d' := Nat.cast_nonneg d'
    linarith

theorem dopplerBins_getD (o : Jcas) (fc : ℝ) (d : ℕ) (hd : d < o.numVelocities) :
    (o.dopplerBins fc).getD d 0 = fc * o.velocity d / light := by
  unfold Jcas.dopplerBins
  rw [List.getD_eq_getElem?_getD, List.getElem?_map, List.getElem?_range hd]
  rfl

theorem norm_weight (v fc fs t0 : ℝ) (n : ℕ) : ‖Verif.RadarChannel.weight v fc fs t0 n‖ = 1 := by
  unfold Verif.RadarChannel.weight
  rw [show (2 * Real.pi * I * ((v * fc / Verif.RadarChannel.light * (t0 + n / fs) : ℝ) : ℂ)) =
    ((2 * Real.pi * (v * fc / Verif.RadarChannel.light * (t0 + n / fs)) : ℝ) : ℂ) * I by push_cast; ring]
  exact Complex.norm_exp_ofReal_mul_I _

/-- A turn by less than a full one, but some, is not the identity. -/
theorem turn_ne (x : ℝ) (h0 : x ≠ 0) (h1 : |x| < 1) : exp (2 * Real.pi * I * x) ≠ 1 := by
  intro h
  obtain ⟨n, hn⟩ := Complex.exp_eq_one_iff.mp h
  have hpi : (2 * Real.pi * I : ℂ) ≠ 0 := by simp [Real.pi_ne_zero]
  have h2 : (x : ℂ) = n := by
    have : (2 * Real.pi * I : ℂ) * x = (2 * Real.pi * I) * n := by rw [hn]; ring
    exact mul_left_cancel₀ hpi this
  have h3 : x = n := by exact_mod_cast h2
  rw [h3] at h1 h0
  have h4 : |n| < 1 := by exact_mod_cast h1
  have h5 : n = 0 := Int.abs_lt_one_iff.mp h4
  exact h0 (by rw [h5]; simp)

/-- C95, targets: the echo of the last transmission, delayed by `k` samples and rotated as by a target receding at the velocity
of one of the bins, is the only maximum of the cube, in the bin labelled with this velocity and the distance of `k` range
resolutions.  The first two and the last sample transmitted are not zero, and velocities are unambiguous at the sampling rate. -/
theorem C95_target_partial (o : Jcas) (tx : List ℂ) (hl : o.last = some [tx]) (h2 : 2 ≤ tx.length) (hx0 : tx.getD 0 0 ≠ 0)
    (hx1 : tx.getD 1 0 ≠ 0) (hxl : tx.getD (tx.length - 1) 0 ≠ 0) (hb : o.beamformer = none) (hdet : o.detector = none)
    (resp : List ℝ → List ℂ) (signal : List ℂ) (fs fc : ℝ) (hfs : 0 < fs) (hfc : 0 < fc) (hv0 : 0 ≤ o.maxVelocity)
    (hamb : 4 * o.maxVelocity * fc / light < fs) (k d : ℕ) (hk : k < o.propagated fs) (hm : o.minBin fs ≤ k)
    (hd : d < o.numVelocities) (A : ℂ) (hA : A ≠ 0) (t0 : ℝ)
    (hs : ∀ i < tx.length + o.propagated fs, signal.getD i 0 = if k ≤ i ∧ i < k + tx.length then
      A * Verif.RadarChannel.weight (2 * o.velocity d) fc fs t0 (i - k) * tx.getD (i - k) 0 else 0) :
    ∃ cube : Cube ℝ, o.receive (.ok ()) resp [signal] fs fc = .ok (cube, none) ∧ (0, d, k - o.minBin fs) ∈ cube.idxs ∧
      (∀ q ∈ cube.idxs, q ≠ (0, d, k - o.minBin fs) → cube.data q < cube.data (0, d, k - o.minBin fs)) ∧
      cube.range[k - o.minBin fs]? = some (k * resolution fs) ∧ velocityBin light cube d = .ok (o.velocity d) := by
  have hlight := light_pos
  obtain ⟨cube, g1, g2, g3, g4, g5, g6, g7, g8, g9⟩ := receive_single o tx hl (by omega) hb resp signal fs fc hfc.le
  rw [hdet] at g1
  set N := tx.length with hN
  set P := o.propagated fs with hP
  set a : ℕ → ℝ := fun n => ‖tx.getD n 0‖ with ha
  have ha0 : ∀ n, 0 ≤ a n := fun n => norm_nonneg _
  have hpos : ∀ n, tx.getD n 0 ≠ 0 → 0 < a n := fun n h => norm_pos_iff.mpr h
  have hsum : 0 < ∑ l ∈ Finset.range N, a l ^ 2 :=
    Finset.sum_pos' (fun l _ => sq_nonneg _) ⟨0, Finset.mem_range.mpr (by omega), by have := hpos 0 hx0; positivity⟩
  have hA' : 0 < ‖A‖ := norm_pos_iff.mpr hA
  -- values of the correlation
  have hcorr : ∀ d' k', d' < o.numVelocities → k' < P → corr (fit (N + P) signal)
      (shifted ((o.dopplerBins fc).getD d' 0) fs tx) k' = ∑ l ∈ Finset.range N,
        (if k ≤ k' + l ∧ k' + l < k + N then A * Verif.RadarChannel.weight (2 * o.velocity d) fc fs t0 (k' + l - k) *
          tx.getD (k' + l - k) 0 else 0) * (starRingEnd ℂ) (tx.getD l 0 * exp (4 * I * Real.pi * (fc * o.velocity d' / light : ℝ) * l / fs)) := by
    intro d' k' hd' hk'
    unfold corr
    rw [shifted_length]
    refine Finset.sum_congr rfl fun l hl => ?_
    rw [Finset.mem_range] at hl
    rw [fit_getD _ _ _ (by omega), hs _ (by omega), shifted_getD, dopplerBins_getD o fc d' hd']
  have hrot : ∀ d' l, ‖exp (4 * I * Real.pi * (fc * o.velocity d' / light : ℝ) * (l : ℕ) / fs)‖ = 1 := by
    intro d' l
    rw [show (4 * I * Real.pi * ((fc * o.velocity d' / light : ℝ) : ℂ) * (l : ℂ) / fs) =
      ((4 * Real.pi * (fc * o.velocity d' / light) * l / fs : ℝ) : ℂ) * I by push_cast; ring]
    exact Complex.norm_exp_ofReal_mul_I _
  -- at the delay of the echo
  have hat : ∀ d', d' < o.numVelocities → ‖corr (fit (N + P) signal) (shifted ((o.dopplerBins fc).getD d' 0) fs tx) k‖ =
      ‖A‖ * ‖∑ l ∈ Finset.range N, ((a l ^ 2 : ℝ) : ℂ) *
        exp (2 * Real.pi * I * ((2 * fc * (o.velocity d - o.velocity d') / light / fs : ℝ) : ℂ)) ^ l‖ := by
    intro d' hd'
    rw [hcorr d' k hd' hk]
    have : ∀ l ∈ Finset.range N, (if k ≤ k + l ∧ k + l < k + N then A * Verif.RadarChannel.weight (2 * o.velocity d) fc fs t0 (k + l - k) *
          tx.getD (k + l - k) 0 else 0) * (starRingEnd ℂ) (tx.getD l 0 * exp (4 * I * Real.pi * (fc * o.velocity d' / light : ℝ) * l / fs)) =
        (A * exp (2 * Real.pi * I * ((2 * o.velocity d * fc / light * t0 : ℝ) : ℂ))) * (((a l ^ 2 : ℝ) : ℂ) *
          exp (2 * Real.pi * I * ((2 * fc * (o.velocity d - o.velocity d') / light / fs : ℝ) : ℂ)) ^ l) := by
      intro l hl
      rw [Finset.mem_range] at hl
      rw [if_pos ⟨by omega, by omega⟩, Nat.add_sub_cancel_left, map_mul, ← Complex.exp_conj]
      have hsq : tx.getD l 0 * (starRingEnd ℂ) (tx.getD l 0) = ((a l ^ 2 : ℝ) : ℂ) := by
        rw [Complex.mul_conj, Complex.normSq_eq_norm_sq]
      have hexp : Verif.RadarChannel.weight (2 * o.velocity d) fc fs t0 l *
          exp ((starRingEnd ℂ) (4 * I * Real.pi * ((fc * o.velocity d' / light : ℝ) : ℂ) * l / fs)) =
          exp (2 * Real.pi * I * ((2 * o.velocity d * fc / light * t0 : ℝ) : ℂ)) *
          exp (2 * Real.pi * I * ((2 * fc * (o.velocity d - o.velocity d') / light / fs : ℝ) : ℂ)) ^ l := by
        unfold Verif.RadarChannel.weight
        rw [← Complex.exp_nat_mul, ← Complex.exp_add, ← Complex.exp_add]
        congr 1
        simp only [map_mul, map_div₀, Complex.conj_ofReal, Complex.conj_I, map_natCast, map_ofNat]
        have : Verif.RadarChannel.light = light := rfl
        rw [this]
        push_cast
        field_simp
        ring
      calc _ = A * (Verif.RadarChannel.weight (2 * o.velocity d) fc fs t0 l *
            exp ((starRingEnd ℂ) (4 * I * Real.pi * ((fc * o.velocity d' / light : ℝ) : ℂ) * l / fs))) *
            (tx.getD l 0 * (starRingEnd ℂ) (tx.getD l 0)) := by ring
        _ = _ := by rw [hexp, hsq]; ring
    rw [Finset.sum_congr rfl this, ← Finset.mul_sum, norm_mul, norm_mul]
    congr 1
    rw [show (2 * Real.pi * I * ((2 * o.velocity d * fc / light * t0 : ℝ) : ℂ)) =
      ((2 * Real.pi * (2 * o.velocity d * fc / light * t0) : ℝ) : ℂ) * I by push_cast; ring, Complex.norm_exp_ofReal_mul_I, mul_one]
  have hmax : ‖corr (fit (N + P) signal) (shifted ((o.dopplerBins fc).getD d 0) fs tx) k‖ = ‖A‖ * ∑ l ∈ Finset.range N, a l ^ 2 := by
    rw [hat d hd]
    simp only [sub_self, mul_zero, zero_div, Complex.ofReal_zero, Complex.exp_zero, one_pow, mul_one]
    rw [← Complex.ofReal_sum, Complex.norm_real, Real.norm_of_nonneg hsum.le]
  have hlt : ∀ d' k', d' < o.numVelocities → k' < P → (d', k') ≠ (d, k) →
      ‖corr (fit (N + P) signal) (shifted ((o.dopplerBins fc).getD d' 0) fs tx) k'‖ <
        ‖corr (fit (N + P) signal) (shifted ((o.dopplerBins fc).getD d 0) fs tx) k‖ := by
    intro d' k' hd' hk' hne
    rw [hmax]
    by_cases hkk : k' = k
    · subst hkk
      have hdd : d' ≠ d := fun h => hne (by rw [h])
      have hvv : 0 < o.maxVelocity ∨ o.numVelocities = 1 := by
        rcases hv0.lt_or_eq with h | h
        · exact Or.inl h
        · right
          unfold Jcas.numVelocities
          rw [← h]
          simp [truncInt]
      obtain ⟨q1, q2⟩ := velocity_ne o hvv d d' hd hd' hdd
      rw [hat d' hd']
      refine mul_lt_mul_of_pos_left ?_ hA'
      refine turn_norm_lt (fun l => a l ^ 2) (fun l => sq_nonneg _) (by have := hpos 0 hx0; positivity)
        (by have := hpos 1 hx1; positivity) N h2 _ ?_ ?_
      · rw [show (2 * Real.pi * I * ((2 * fc * (o.velocity d - o.velocity d') / light / fs : ℝ) : ℂ)) =
          ((2 * Real.pi * (2 * fc * (o.velocity d - o.velocity d') / light / fs) : ℝ) : ℂ) * I by push_cast; ring]
        exact Complex.norm_exp_ofReal_mul_I _
      · refine turn_ne _ ?_ ?_
        · have h3 : 2 * fc ≠ 0 := by positivity
          exact div_ne_zero (div_ne_zero (mul_ne_zero h3 q1) hlight.ne') hfs.ne'
        · rw [abs_div, abs_div, abs_mul, abs_of_pos hfs, abs_of_pos hlight, abs_of_pos (by positivity : 0 < 2 * fc), div_lt_one hfs]
          refine lt_of_le_of_lt ?_ hamb
          rw [div_le_div_iff_of_pos_right hlight]
          nlinarith
    · rw [hcorr d' k' hd' hk']
      refine (norm_sum_le _ _).trans_lt ?_
      have hterm : ∀ l ∈ Finset.range N, ‖(if k ≤ k' + l ∧ k' + l < k + N then A * Verif.RadarChannel.weight (2 * o.velocity d) fc fs t0 (k' + l - k) *
          tx.getD (k' + l - k) 0 else 0) * (starRingEnd ℂ) (tx.getD l 0 * exp (4 * I * Real.pi * (fc * o.velocity d' / light : ℝ) * l / fs))‖ =
          ‖A‖ * ((if k ≤ k' + l then a (k' + l - k) else 0) * a l) := by
        intro l _
        rw [norm_mul, RCLike.norm_conj, norm_mul, hrot, mul_one]
        by_cases h3 : k ≤ k' + l
        · by_cases h4 : k' + l < k + N
          · rw [if_pos ⟨h3, h4⟩, if_pos h3, norm_mul, norm_mul, norm_weight, mul_one, mul_assoc]
          · rw [if_neg (fun h => h4 h.2), if_pos h3]
            have : a (k' + l - k) = 0 := by
              simp only [ha]
              rw [getD_none _ _ _ (by omega), norm_zero]
            rw [this]
            simp
        · rw [if_neg (fun h => h3 h.1), if_neg h3]
          simp
      rw [Finset.sum_congr rfl hterm, ← Finset.mul_sum]
      refine mul_lt_mul_of_pos_left ?_ hA'
      refine corr_norm_lt_lag a ha0 N k k' (fun n hn => ?_) (hpos 0 hx0) (hpos _ hxl) (by omega) hkk
      simp only [ha]
      rw [getD_none _ _ _ (by omega), norm_zero]
  refine ⟨cube, g1, (mem_idxs _ _ _ _).mpr ⟨by omega, by omega, by omega⟩, ?_, ?_, ?_⟩
  · rintro ⟨x, d', c'⟩ hq hne
    obtain ⟨q1, q2, q3⟩ := (mem_idxs _ _ _ _).mp hq
    have hx : x = 0 := by omega
    subst hx
    rw [g9, g9]
    have hkm : o.minBin fs + (k - o.minBin fs) = k := by omega
    rw [hkm]
    have hN' : (0 : ℝ) < N := by
      have : 0 < N := by omega
      exact_mod_cast this
    rw [div_lt_div_iff_of_pos_right hN']
    refine pow_lt_pow_left₀ (hlt d' _ (by omega) (by omega) fun h => hne ?_) (norm_nonneg _) (by norm_num)
    rw [Prod.mk.injEq] at h
    rw [h.1, show c' = k - o.minBin fs by omega]
  · rw [g8, List.getElem?_map, List.getElem?_range (by omega), Option.map_some]
    rw [show o.minBin fs + (k - o.minBin fs) = k by omega]
  · unfold velocityBin
    rw [g7, if_neg (not_le.mpr hfc), g6]
    unfold Jcas.dopplerBins
    rw [List.getElem?_map, List.getElem?_range hd]
    simp only [Option.map_some, Except.ok.injEq]
    field_simp

/-! ### Labels -/

/-- C95, minimum range: only ranges of at least twice the minimum are shown; a target between the minimum range and its double
is not. -/
theorem C95_min_range_fails (o : Jcas) (tx : List ℂ) (hl : o.last = some [tx]) (htx : 0 < tx.length) (hb : o.beamformer = none)
    (hdet : o.detector = none) (resp : List ℝ → List ℂ) (signal : List ℂ) (fs fc : ℝ) (hfs : 0 < fs) (hfc : 0 ≤ fc)
    (hmin : 0 < o.minRange) (k : ℕ) (hk : o.minRange ≤ k * resolution fs ∧ k * resolution fs < 2 * o.minRange) :
    ∃ cube : Cube ℝ, o.receive (.ok ()) resp [signal] fs fc = .ok (cube, none) ∧ (∀ r ∈ cube.range, 2 * o.minRange ≤ r) ∧
      (k * resolution fs : ℝ) ∉ cube.range := by
  obtain ⟨cube, g1, -, -, -, -, -, -, g8, -⟩ := receive_single o tx hl htx hb resp signal fs fc hfc
  rw [hdet] at g1
  have hres : 0 < resolution fs := by
    have := light_pos
    unfold resolution
    positivity
  have hall : ∀ r ∈ cube.range, 2 * o.minRange ≤ r := by
    intro r hr
    rw [g8, List.mem_map] at hr
    obtain ⟨i, -, rfl⟩ := hr
    have h1 : 2 * o.minRange / resolution fs ≤ (o.minBin fs : ℝ) := by
      unfold Jcas.minBin
      have h2 := Int.le_ceil (2 * o.minRange / resolution fs)
      have h3 : (⌈2 * o.minRange / resolution fs⌉ : ℝ) ≤ ((⌈2 * o.minRange / resolution fs⌉.toNat : ℕ) : ℝ) := by
        exact_mod_cast Int.self_le_toNat _
      linarith
    rw [div_le_iff₀ hres] at h1
    push_cast
    have : (0 : ℝ) ≤ i * resolution fs := by positivity
    linarith
  exact ⟨cube, g1, hall, fun h => absurd (hall _ h) (not_le.mpr hk.2)⟩

theorem truncInt_natCast (n : ℕ) : truncInt (n : ℝ) = n := truncInt_eq_nat rfl

/-- C95, velocities: if the resolution divides the span of velocities, bins lie apart by the resolution, from the negative to the
positive maximum. -/
theorem C95_velocities_partial (o : Jcas) (hr : 0 < o.velocityResolution) (n : ℕ) (hn : 2 * o.maxVelocity = n * o.velocityResolution) :
    o.numVelocities = n + 1 ∧ ∀ d ≤ n, o.velocity d = -o.maxVelocity + d * o.velocityResolution := by
  have h1 : o.numVelocities = n + 1 := by
    unfold Jcas.numVelocities
    rw [hn, mul_div_assoc, div_self hr.ne', mul_one, truncInt_natCast]
    rfl
  refine ⟨h1, fun d hd => ?_⟩
  unfold Jcas.velocity
  rcases Nat.eq_zero_or_pos n with rfl | h
  · have : d = 0 := by omega
    subst this
    rw [h1, if_pos rfl]
    simp
  · rw [if_neg (by omega), h1, hn]
    have : (n : ℝ) ≠ 0 := by
      have : n ≠ 0 := by omega
      exact_mod_cast this
    push_cast
    rw [add_sub_cancel_right, mul_div_assoc, mul_comm (n : ℝ), div_mul_cancel₀ _ this]

/-- C95, velocities: if the span of velocities is less than the resolution, the only bin is labelled with the negative maximum
velocity; targets at rest are in it. -/
theorem C95_velocities_fails (o : Jcas) (hr : 0 < o.velocityResolution) (hv : 0 < o.maxVelocity)
    (hlt : 2 * o.maxVelocity < o.velocityResolution) (fc : ℝ) (hfc : 0 < fc) :
    ∃ f, o.dopplerBins fc = [f] ∧ f * light / fc = -o.maxVelocity := by
  have hl := light_pos
  have h1 : o.numVelocities = 1 := by
    unfold Jcas.numVelocities
    rw [truncInt_nonneg (by positivity), Int.floor_eq_zero_iff.mpr ⟨by positivity, (div_lt_one hr).mpr hlt⟩]
    rfl
  refine ⟨fc * o.velocity 0 / light, ?_, ?_⟩
  · unfold Jcas.dopplerBins
    rw [h1]
    rfl
  · unfold Jcas.velocity
    rw [if_pos h1]
    field_simp

/-! ### Several antennas -/

/-- C95, angles: with several streams transmitted and as many angles probed, all angles show the same powers, those of the sum of
the correlations of all angles. -/
theorem C95_angles_fails (o : Jcas) (tx : List (List ℂ)) (hl : o.last = some tx) (h2 : 2 ≤ tx.length) (h0 : 0 < (tx.headD []).length)
    (b : Beamformer) (hb : o.beamformer = some b) (resp : List ℝ → List ℂ) (streams : List (List ℂ)) (hs : 2 ≤ streams.length)
    (hout : b.outputs streams.length = 1) (hprobe : ∀ s, (b.probe s).length = b.focus.length) (hf : 0 < b.focus.length) (fs fc : ℝ)
    (hfc : 0 ≤ fc) (hdet : o.detector = none) :
    ∃ cube : Cube ℝ, o.receive (.ok ()) resp streams fs fc = .ok (cube, none) ∧ cube.na = b.focus.length ∧
      ∀ i < cube.na, ∀ d k, cube.data (i, d, k) = ‖∑ t ∈ Finset.range b.focus.length,
        corr (((b.probe (streams.map (fit ((tx.headD []).length + o.propagated fs)))).map (·.headD [])).getD t [])
          (shifted ((o.dopplerBins fc).getD d 0) fs ((sent resp (b.focus.map (·.headD [])) tx).getD t []))
          (o.minBin fs + k)‖ ^ 2 / ((tx.headD []).length : ℝ) := by
  unfold Jcas.receive
  rw [hl]
  dsimp only
  have hbf : beamform o.beamformer (streams.map (fit ((tx.headD []).length + o.propagated fs))) =
      .ok (b.focus.map (·.headD []), (b.probe (streams.map (fit ((tx.headD []).length + o.propagated fs)))).map (·.headD [])) := by
    unfold beamform
    rw [hb]
    dsimp only
    rw [List.length_map, if_pos (by omega), hout]
    simp
  rw [hbf]
  dsimp only
  set lines := (b.probe (streams.map (fit ((tx.headD []).length + o.propagated fs)))).map (·.headD []) with hlines
  have hll : lines.length = b.focus.length := by rw [hlines, List.length_map, hprobe]
  set angles := b.focus.map (·.headD []) with hangles
  have hal : angles.length = b.focus.length := by rw [hangles, List.length_map]
  have hys : (sent resp angles tx).length = b.focus.length := by
    unfold sent
    rw [if_pos (by omega), List.length_map, hal]
  have hc : ∀ ys : List (List ℂ), ys.length = b.focus.length → correlate lines ys ((tx.headD []).length + o.propagated fs)
      (tx.headD []).length = .ok (1, fun a k => ∑ t ∈ Finset.range b.focus.length, corr (lines.getD (a + t) []) (ys.getD t []) k) := by
    intro ys hy
    unfold correlate
    rw [if_neg (by omega), if_pos (by omega), hll, hy, Nat.sub_self]
  rw [hc _ hys]
  dsimp only
  rw [if_pos (Or.inr rfl)]
  unfold mkCube
  dsimp only
  rw [if_neg (by simp), if_neg (by simp [Jcas.dopplerBins]), if_neg (by simp), if_neg (not_lt.mpr hfc), hdet]
  dsimp only
  refine ⟨_, rfl, hal, fun i hi d k => ?_⟩
  dsimp only at hi ⊢
  rw [hc ((sent resp angles tx).map (shifted ((o.dopplerBins fc).getD d 0) fs)) (by rw [List.length_map, hys])]
  dsimp only
  have h0 : (if 1 = angles.length then i else 0) = 0 := by
    split
    · omega
    · rfl
  rw [h0]
  congr 3
  refine Finset.sum_congr rfl fun t ht => ?_
  rw [Finset.mem_range] at ht
  rw [Nat.zero_add]
  congr 1
  have hts : t < (sent resp angles tx).length := by omega
  simp only [List.getD_eq_getElem?_getD, List.getElem?_map, List.getElem?_eq_getElem hts, Option.map_some, Option.getD_some]

/-- C95, prediction: a signal sent from all antennas with the phases of the response towards a probed angle is predicted to
arrive there with the amplitudes of all antennas added, and nowhere with more. -/
theorem C95_prediction (resp : List ℝ → List ℂ) (angles : List (List ℝ)) (a : List ℝ) (s : List ℂ) (M : ℕ) (hM : 2 ≤ M)
    (hlen : ∀ b ∈ angles, (resp b).length = M) (hunit : ∀ b ∈ angles, ∀ z ∈ resp b, ‖z‖ = 1) (ha : a ∈ angles) (t : ℕ)
    (ht : t < angles.length) (n : ℕ) (hn : n < s.length) :
    let y := sent resp angles ((resp a).map fun w => s.map (w * ·))
    ‖(y.getD t []).getD n 0‖ ≤ M * ‖s.getD n 0‖ ∧ (angles.getD t [] = a → (y.getD t []).getD n 0 = M * s.getD n 0) := by
  have hla := hlen a ha
  have hhead : (((resp a).map fun w => s.map (w * ·)).headD []).length = s.length := by
    cases hr : resp a with
    | nil => rw [hr] at hla; simp at hla; omega
    | cons w ws => simp
  have hget : ∀ {α β : Type} (l : List α) (f : α → β) (d : β) (e : α) (i : ℕ), i < l.length → (l.map f).getD i d = f (l.getD i e) := by
    intro α β l f d e i hi
    rw [List.getD_eq_getElem?_getD, List.getElem?_map, List.getElem?_eq_getElem hi, Option.map_some, Option.getD_some,
      List.getD_eq_getElem?_getD, List.getElem?_eq_getElem hi, Option.getD_some]
  have hrow : ∀ m < M, (((resp a).map fun w => s.map (w * ·)).getD m []).getD n 0 = (resp a).getD m 0 * s.getD n 0 := by
    intro m hm
    rw [hget (resp a) _ [] 0 m (by omega), hget s _ 0 0 n hn]
  have hval : ((sent resp angles ((resp a).map fun w => s.map (w * ·))).getD t []).getD n 0 =
      ∑ m ∈ Finset.range M, (starRingEnd ℂ) ((resp (angles.getD t [])).getD m 0) * ((resp a).getD m 0 * s.getD n 0) := by
    unfold sent
    rw [if_pos (by rw [List.length_map]; omega), hhead]
    rw [hget angles _ [] [] t ht, hget (List.range s.length) _ 0 0 n (by simpa using hn), List.length_map, hla,
      show (List.range s.length).getD n 0 = n by
        rw [List.getD_eq_getElem?_getD, List.getElem?_range hn, Option.getD_some]]
    exact Finset.sum_congr rfl fun m hm => by rw [hrow m (Finset.mem_range.mp hm)]
  have hmem : ∀ b ∈ angles, ∀ m < M, ‖(resp b).getD m 0‖ = 1 := by
    intro b hb m hm
    rw [List.getD_eq_getElem?_getD, List.getElem?_eq_getElem (by rw [hlen b hb]; exact hm), Option.getD_some]
    exact hunit b hb _ (List.getElem_mem _)
  have hta : angles.getD t [] ∈ angles := by
    rw [List.getD_eq_getElem?_getD, List.getElem?_eq_getElem ht, Option.getD_some]
    exact List.getElem_mem _
  dsimp only
  refine ⟨?_, fun he => ?_⟩
  · rw [hval]
    refine (norm_sum_le _ _).trans ?_
    rw [Finset.sum_congr rfl fun m hm => show _ = ‖s.getD n 0‖ by
      rw [norm_mul, norm_mul, RCLike.norm_conj, hmem _ hta m (Finset.mem_range.mp hm), hmem a ha m (Finset.mem_range.mp hm), one_mul,
        one_mul]]
    rw [Finset.sum_const, Finset.card_range, nsmul_eq_mul]
  · rw [hval, he, Finset.sum_congr rfl fun m hm => show _ = s.getD n 0 by
      rw [← mul_assoc, mul_comm ((starRingEnd ℂ) _), Complex.mul_conj, Complex.normSq_eq_norm_sq,
        hmem a ha m (Finset.mem_range.mp hm)]; simp]
    rw [Finset.sum_const, Finset.card_range, nsmul_eq_mul]

example : ∃ (resp : List ℝ → List ℂ) (angles : List (List ℝ)), angles.length = 2 ∧ (∀ b ∈ angles, (resp b).length = 2) ∧
    ∀ b ∈ angles, ∀ z ∈ resp b, ‖z‖ = 1 :=
  ⟨fun _ => [1, I], [[0, 0], [1, 0]], rfl, by simp, by simp⟩

/-- C95, single streams: if several streams were transmitted and several points are in focus, a single stream cannot be
received. -/
theorem C95_single_fails (o : Jcas) (tx : List (List ℂ)) (hl : o.last = some tx) (h2 : 2 ≤ tx.length) (h0 : 0 < (tx.headD []).length)
    (b : Beamformer) (hb : o.beamformer = some b) (resp : List ℝ → List ℂ) (stream : List ℂ) (hf : 2 ≤ b.focus.length) (fs fc : ℝ)
    (hP : 0 < o.propagated fs) : o.receive (.ok ()) resp [stream] fs fc = .error .value := by
  unfold Jcas.receive
  rw [hl]
  dsimp only
  have hbf : beamform o.beamformer ([stream].map (fit ((tx.headD []).length + o.propagated fs))) =
      .ok (b.focus.map (·.headD []), [stream].map (fit ((tx.headD []).length + o.propagated fs))) := by
    unfold beamform
    rw [hb]
    simp
  rw [hbf]
  dsimp only
  unfold correlate sent
  rw [if_pos (by omega : tx.length > 1)]
  simp only [List.length_map, List.length_singleton]
  rw [if_neg (by omega), if_neg (by omega), if_neg (by omega)]

/-! ### Storage -/

/-- What is configured: besides the parameters, the waveform, beamformer, detector, ports and carrier, as far as `RadarBase` stores
them, the references of the forward error corrections and of the symbol precodings. -/
structure Setup where
  maxRange : ℝ
  maxVelocity : ℝ
  velocityResolution : ℝ
  base : Config
  encoders : List ℕ
  precoders : List ℕ

open Classical in
/-- `serialize` and `Deserialize`, `jcas/matched_filtering.py` 333-353: a new operator created with the stored parameters; encoders
and precoders are those of a new modem (`jcas/jcas.py` 131-132). -/
noncomputable def Setup.restore (s : Setup) (a b : ℕ) : Except PyErr Setup :=
  match (s.base.store a b).restore with
  | .error e => .error e
  | .ok base =>
    if s.maxRange ≤ 0 then .error .value
    else if s.maxVelocity < 0 then .error .value
    else if s.velocityResolution ≤ 0 then .error .value
    else .ok ⟨s.maxRange, s.maxVelocity, s.velocityResolution, base, [], []⟩

/-- C95, storage: ranges, velocities, waveform, beamformer and detector are restored if no array of ports takes the address of
another. -/
theorem C95_store_partial (s : Setup) (a b : ℕ) (h1 : 0 < s.maxRange) (h2 : 0 ≤ s.maxVelocity) (h3 : 0 < s.velocityResolution)
    (hm : 0 ≤ s.base.minRange) (hc : ∀ x, s.base.carrier = some x → 0 ≤ x)
    (hab : s.base.receivePorts = none ∨ s.base.transmitPorts = none ∨ a ≠ b) :
    ∃ r, s.restore a b = .ok r ∧ r.maxRange = s.maxRange ∧ r.maxVelocity = s.maxVelocity ∧
      r.velocityResolution = s.velocityResolution ∧ r.base = s.base ∧ (s.encoders = [] → s.precoders = [] → r = s) := by
  unfold Setup.restore
  rw [C94_store_partial s.base a b hm hc hab]
  dsimp only
  rw [if_neg (not_le.mpr h1), if_neg (not_lt.mpr h2), if_neg (not_le.mpr h3)]
  refine ⟨_, rfl, rfl, rfl, rfl, rfl, fun h4 h5 => ?_⟩
  obtain ⟨_, _, _, _, _, _⟩ := s
  dsimp only at h4 h5
  rw [h4, h5]

/-- C95, storage: a restored operator neither encodes nor precodes, so it does not transmit what the stored one did. -/
theorem C95_store_fails (s : Setup) (a b : ℕ) (h : s.encoders ≠ [] ∨ s.precoders ≠ []) (r : Setup) (hr : s.restore a b = .ok r) :
    r.encoders = [] ∧ r.precoders = [] ∧ r ≠ s := by
  have h1 : r.encoders = [] ∧ r.precoders = [] := by
    unfold Setup.restore at hr
    split at hr
    · cases hr
    · repeat' split at hr
      all_goals first
        | cases hr
          exact ⟨rfl, rfl⟩
        | cases hr
  refine ⟨h1.1, h1.2, ?_⟩
  rintro rfl
  rcases h with h | h
  · exact h h1.1
  · exact h h1.2

/-! ### Examples -/

/-- Velocities of -1, 0 and 1 and ranges up to four samples. -/
noncomputable def example1 : Jcas := ⟨4 * light / 2, 1, 1, 0, none, none, some [[1, 1]]⟩

theorem example1_numVelocities : example1.numVelocities = 3 := (C95_velocities_partial example1 (by norm_num [example1]) 2
  (by norm_num [example1])).1

theorem example1_propagated : example1.propagated 1 = 4 := by
  have := light_pos
  unfold Jcas.propagated resolution
  rw [show example1.maxRange / (light / (2 * 1)) = ((4 : ℕ) : ℝ) by
    simp only [example1]
    push_cast
    field_simp, truncInt_natCast]
  rfl

theorem example1_minBin : example1.minBin 1 = 0 := by simp [Jcas.minBin, example1]

/-- A target two samples away, at rest. -/
example : ∃ cube : Cube ℝ, example1.receive (.ok ()) (fun _ => []) [[0, 0, 2, 2, 0, 0]] 1 1 = .ok (cube, none) ∧
    (∀ q ∈ cube.idxs, q ≠ (0, 1, 2) → cube.data q < cube.data (0, 1, 2)) ∧ cube.range[2]? = some ((2 : ℕ) * resolution 1) := by
  have hl : 4 * example1.maxVelocity * 1 / light < 1 := by
    rw [div_lt_one light_pos]
    norm_num [example1, light, Verif.RadarChannel.light]
  have hv : example1.velocity 1 = 0 := by
    rw [(C95_velocities_partial example1 (by norm_num [example1]) 2 (by norm_num [example1])).2 1 (by norm_num)]
    norm_num [example1]
  obtain ⟨cube, h1, _, h3, h4, _⟩ := C95_target_partial example1 [1, 1] rfl le_rfl (by simp) (by simp) (by simp) rfl rfl (fun _ => [])
    [0, 0, 2, 2, 0, 0] 1 1 one_pos one_pos (by norm_num [example1]) hl 2 1 (by rw [example1_propagated]; decide)
    (by rw [example1_minBin]; decide) (by rw [example1_numVelocities]; decide) 2 (by norm_num) 0
    (fun i hi => by
      rw [example1_propagated] at hi
      have hw : ∀ n, Verif.RadarChannel.weight (2 * example1.velocity 1) 1 1 0 n = 1 := by
        intro n
        unfold Verif.RadarChannel.weight
        rw [hv]
        simp
      rw [hw]
      simp only [List.length_cons, List.length_nil] at hi ⊢
      interval_cases i <;> norm_num)
  rw [example1_minBin] at h3 h4
  exact ⟨cube, h1, h3, h4⟩

end Verif.MatchedFilter
