import Mathlib.Analysis.SpecialFunctions.Trigonometric.Sinc
import Mathlib.Analysis.SpecialFunctions.Trigonometric.Deriv
import Mathlib.Analysis.Calculus.Deriv.Slope
import Mathlib.Analysis.Calculus.Deriv.Inv
import Mathlib.Analysis.Calculus.Deriv.Pow
import Verif.Modem.Pulse

/-!
# C92: taps of rolled-off pulses

The taps of `modem/waveform_single_carrier.py` 796-824 and 846-862 are given by a quotient and by separate values where
the quotient is zero by zero.  Here these values are proved to be the limits of the quotients, and the taps to be even.
-/

namespace Verif.SingleCarrier

open Filter Topology

/-- The limit of a quotient of functions vanishing at a point is the quotient of their derivatives. -/
theorem tendsto_div_of_deriv {f g : ℝ → ℝ} {a f' g' : ℝ} (hf : HasDerivAt f f' a) (hg : HasDerivAt g g' a)
    (hf0 : f a = 0) (hg0 : g a = 0) (h : g' ≠ 0) : Tendsto (fun t => f t / g t) (𝓝[≠] a) (𝓝 (f' / g')) := by
  have h1 := (hasDerivAt_iff_tendsto_slope.mp hf).div (hasDerivAt_iff_tendsto_slope.mp hg) h
  refine h1.congr' ?_
  filter_upwards [self_mem_nhdsWithin] with t ht
  have ht' : t - a ≠ 0 := sub_ne_zero.mpr ht
  rw [Pi.div_apply, slope_def_field, slope_def_field, hf0, hg0, sub_zero, sub_zero, div_div_div_cancel_right₀ ht']

theorem sinc_eq (t : ℝ) : sinc t = Real.sinc (Real.pi * t) := by
  unfold sinc
  by_cases h : t = 0
  · simp [h]
  · rw [if_neg h, Real.sinc_of_ne_zero (mul_ne_zero Real.pi_ne_zero h)]

theorem continuous_sinc' : Continuous sinc := by
  have : sinc = fun t => Real.sinc (Real.pi * t) := funext sinc_eq
  rw [this]
  exact Real.continuous_sinc.comp (continuous_const.mul continuous_id)

theorem sinc_neg (t : ℝ) : sinc (-t) = sinc t := by
  rw [sinc_eq, sinc_eq, mul_neg, Real.sinc_neg]

theorem raisedCosine_even (β t : ℝ) : raisedCosine β (-t) = raisedCosine β t := by
  unfold raisedCosine
  rw [abs_neg, sinc_neg, mul_neg, Real.cos_neg, mul_neg, neg_sq]

theorem rootRaisedCosine_even (β t : ℝ) : rootRaisedCosine β (-t) = rootRaisedCosine β t := by
  unfold rootRaisedCosine
  rw [abs_neg]
  have e : (Real.sin (Real.pi * -t * (1 - β)) + 4 * β * -t * Real.cos (Real.pi * -t * (1 + β))) /
      (Real.pi * -t * (1 - (4 * β * -t) ^ 2)) = (Real.sin (Real.pi * t * (1 - β)) +
      4 * β * t * Real.cos (Real.pi * t * (1 + β))) / (Real.pi * t * (1 - (4 * β * t) ^ 2)) := by
    rw [show Real.pi * -t * (1 - β) = -(Real.pi * t * (1 - β)) by ring, Real.sin_neg,
      show Real.pi * -t * (1 + β) = -(Real.pi * t * (1 + β)) by ring, Real.cos_neg, ← neg_div_neg_eq]
    congr 1 <;> ring
  rw [e]
  simp only [neg_eq_zero]

theorem abs_eq_one_of_sq {x : ℝ} (h : x ^ 2 = 1) : |x| = 1 := by
  rcases mul_self_eq_one_iff.mp ((sq x).symm.trans h) with e | e <;> simp [e]

/-- Even functions are continuous at the negative of a point if at the point. -/
theorem continuousAt_neg_of_even {f : ℝ → ℝ} (he : ∀ t, f (-t) = f t) {a : ℝ} (h : ContinuousAt f a) :
    ContinuousAt f (-a) := by
  have : f = fun t => f (-t) := funext fun t => (he t).symm
  rw [this]
  have h' : ContinuousAt f (-(-a)) := by rwa [neg_neg]
  exact ContinuousAt.comp (f := fun t : ℝ => -t) h' continuous_neg.continuousAt

theorem abs_ne_near {c : ℝ} (hc : 0 < c) : ∀ᶠ t in 𝓝[≠] c, |t| ≠ c := by
  filter_upwards [self_mem_nhdsWithin, nhdsWithin_le_nhds (lt_mem_nhds hc)] with t ht h0
  rw [abs_of_pos h0]; exact ht

theorem raisedCosine_at {β : ℝ} (hβ : 0 < β) : ContinuousAt (raisedCosine β) (1 / (2 * β)) := by
  have hc : 0 < 1 / (2 * β) := by positivity
  rw [← continuousWithinAt_compl_self]
  have hv : raisedCosine β (1 / (2 * β)) = sinc (1 / (2 * β)) * (Real.pi / 4) := by
    unfold raisedCosine
    rw [if_pos ⟨hβ.ne', abs_of_pos hc⟩, mul_comm]
  have hf : HasDerivAt (fun t => Real.cos (Real.pi * β * t)) (-(Real.pi * β)) (1 / (2 * β)) := by
    have h := ((hasDerivAt_id (1 / (2 * β))).const_mul (Real.pi * β)).cos
    have e : Real.pi * β * (1 / (2 * β)) = Real.pi / 2 := by field_simp
    refine h.congr_deriv ?_
    simp only [id]
    rw [e, Real.sin_pi_div_two]; ring
  have hg : HasDerivAt (fun t => 1 - (2 * β * t) ^ 2) (-(4 * β)) (1 / (2 * β)) := by
    have h := (((hasDerivAt_id (1 / (2 * β))).const_mul (2 * β)).pow 2).const_sub 1
    refine h.congr_deriv ?_
    simp only [id]
    field_simp
    norm_num
  have h := tendsto_div_of_deriv hf hg (by
      have e : Real.pi * β * (1 / (2 * β)) = Real.pi / 2 := by field_simp
      show Real.cos (Real.pi * β * (1 / (2 * β))) = 0
      rw [e, Real.cos_pi_div_two]) (by
      have e : 2 * β * (1 / (2 * β)) = 1 := by field_simp
      show 1 - (2 * β * (1 / (2 * β))) ^ 2 = 0
      rw [e]; norm_num) (by simp [hβ.ne'])
  have h2 : -(Real.pi * β) / -(4 * β) = Real.pi / 4 := by field_simp
  rw [h2] at h
  have hs : Tendsto sinc (𝓝[≠] (1 / (2 * β))) (𝓝 (sinc (1 / (2 * β)))) :=
    continuous_sinc'.continuousAt.mono_left nhdsWithin_le_nhds
  show Tendsto (raisedCosine β) (𝓝[≠] (1 / (2 * β))) (𝓝 (raisedCosine β (1 / (2 * β))))
  rw [hv]
  refine (hs.mul h).congr' ?_
  filter_upwards [abs_ne_near hc] with t ht
  unfold raisedCosine
  rw [if_neg (fun hh => ht hh.2), mul_div_assoc]

theorem raisedCosine_off {β : ℝ} (hβ : 0 ≤ β) (t : ℝ) (ht : ¬ (β ≠ 0 ∧ |t| = 1 / (2 * β))) :
    ContinuousAt (raisedCosine β) t := by
  have hd : 1 - (2 * β * t) ^ 2 ≠ 0 := by
    intro h0
    have h1 : (2 * β * t) ^ 2 = 1 := by linarith
    have h2 : |2 * β * t| = 1 := abs_eq_one_of_sq h1
    have hb : β ≠ 0 := by rintro rfl; simp at h2
    rw [abs_mul, abs_mul, abs_of_nonneg hβ, abs_two] at h2
    refine ht ⟨hb, ?_⟩
    rw [eq_div_iff (by positivity)]; linarith
  have hc : ContinuousAt (fun t => sinc t * Real.cos (Real.pi * β * t) / (1 - (2 * β * t) ^ 2)) t := by
    refine ContinuousAt.div ?_ ?_ hd
    · exact (continuous_sinc'.mul (by fun_prop)).continuousAt
    · fun_prop
  refine hc.congr ?_
  by_cases hb : β = 0
  · subst hb
    refine Eventually.of_forall fun u => ?_
    unfold raisedCosine; rw [if_neg (by simp)]
  · have : ∀ᶠ u in 𝓝 t, |u| ≠ 1 / (2 * β) :=
      continuous_abs.continuousAt.eventually_ne (fun h => ht ⟨hb, h⟩)
    filter_upwards [this] with u hu
    unfold raisedCosine; rw [if_neg (fun h => hu h.2)]

/-- C92, taps of raised cosines: they are even and depend continuously on time, so that the separate value is the limit
of the quotient, and all times are covered; at zero the tap is one. -/
theorem C92_raised_cosine (β : ℝ) (hβ : 0 ≤ β) :
    Continuous (raisedCosine β) ∧ (∀ t, raisedCosine β (-t) = raisedCosine β t) ∧ raisedCosine β 0 = 1 ∧
      ∀ t, 2 * β * |t| ≠ 1 → t ≠ 0 → raisedCosine β t * (Real.pi * t * (1 - (2 * β * t) ^ 2)) =
        Real.sin (Real.pi * t) * Real.cos (Real.pi * β * t) := by
  refine ⟨continuous_iff_continuousAt.mpr fun t => ?_, raisedCosine_even β, ?_, ?_⟩
  · by_cases h : β ≠ 0 ∧ |t| = 1 / (2 * β)
    · have hb : 0 < β := lt_of_le_of_ne hβ (Ne.symm h.1)
      rcases (abs_eq (by positivity : (0 : ℝ) ≤ 1 / (2 * β))).mp h.2 with e | e
      · rw [e]; exact raisedCosine_at hb
      · rw [e]; exact continuousAt_neg_of_even (raisedCosine_even β) (raisedCosine_at hb)
    · exact raisedCosine_off hβ t h
  · unfold raisedCosine
    have : ¬ (β ≠ 0 ∧ |(0 : ℝ)| = 1 / (2 * β)) := by
      rintro ⟨hb, h⟩
      rw [abs_zero] at h
      exact absurd h.symm (by positivity)
    rw [if_neg this]; simp [sinc]
  · intro t h1 h0
    have hd : 1 - (2 * β * t) ^ 2 ≠ 0 := by
      intro hz
      have hz' : (2 * β * t) ^ 2 = 1 := by linarith
      have h2 : |2 * β * t| = 1 := abs_eq_one_of_sq hz'
      rw [abs_mul, abs_mul, abs_of_nonneg hβ, abs_two] at h2
      exact h1 h2
    unfold raisedCosine
    rw [if_neg (by
      rintro ⟨hb, h⟩
      apply h1; rw [h]; field_simp)]
    unfold sinc
    rw [if_neg h0]
    have hp : Real.pi * t ≠ 0 := mul_ne_zero Real.pi_ne_zero h0
    generalize Real.pi * t = a at *
    generalize 1 - (2 * β * t) ^ 2 = b at *
    field_simp

theorem rootRaisedCosine_zero (β : ℝ) (hβ : 0 ≤ β) : ContinuousAt (rootRaisedCosine β) 0 := by
  rw [← continuousWithinAt_compl_self]
  show Tendsto (rootRaisedCosine β) (𝓝[≠] 0) (𝓝 (rootRaisedCosine β 0))
  have hv : rootRaisedCosine β 0 = (Real.pi * (1 - β) + 4 * β) / Real.pi := by
    unfold rootRaisedCosine
    have := Real.pi_ne_zero
    rw [if_pos rfl]; field_simp; ring
  have hf : HasDerivAt (fun t => Real.sin (Real.pi * t * (1 - β)) + 4 * β * t * Real.cos (Real.pi * t * (1 + β)))
      (Real.pi * (1 - β) + 4 * β) 0 := by
    have h1 := (((hasDerivAt_id (0 : ℝ)).const_mul Real.pi).mul_const (1 - β)).sin
    have h2 := ((hasDerivAt_id (0 : ℝ)).const_mul (4 * β)).mul
      (((hasDerivAt_id (0 : ℝ)).const_mul Real.pi).mul_const (1 + β)).cos
    refine (h1.add h2).congr_deriv ?_
    simp
  have hg : HasDerivAt (fun t => Real.pi * t * (1 - (4 * β * t) ^ 2)) Real.pi 0 := by
    have h1 := ((hasDerivAt_id (0 : ℝ)).const_mul Real.pi).mul
      ((((hasDerivAt_id (0 : ℝ)).const_mul (4 * β)).pow 2).const_sub 1)
    refine h1.congr_deriv ?_
    simp
  have h := tendsto_div_of_deriv hf hg (by simp) (by simp) Real.pi_ne_zero
  rw [hv]
  refine h.congr' ?_
  have hne : ∀ᶠ t : ℝ in 𝓝[≠] 0, ¬ (β ≠ 0 ∧ |t| = 1 / (4 * β)) := by
    by_cases hb : β = 0
    · exact Eventually.of_forall fun t h => h.1 hb
    · have : ∀ᶠ u : ℝ in 𝓝 0, |u| ≠ 1 / (4 * β) :=
        continuous_abs.continuousAt.eventually_ne (by rw [abs_zero]; intro h; exact absurd h.symm (by positivity))
      filter_upwards [nhdsWithin_le_nhds this] with u hu h
      exact hu h.2
  filter_upwards [self_mem_nhdsWithin, hne] with t ht h2
  unfold rootRaisedCosine
  rw [if_neg (by simpa using ht), if_neg h2]

theorem rootRaisedCosine_at {β : ℝ} (hβ : 0 < β) : ContinuousAt (rootRaisedCosine β) (1 / (4 * β)) := by
  have hc : 0 < 1 / (4 * β) := by positivity
  rw [← continuousWithinAt_compl_self]
  show Tendsto (rootRaisedCosine β) (𝓝[≠] (1 / (4 * β))) (𝓝 (rootRaisedCosine β (1 / (4 * β))))
  have hpi := Real.pi_ne_zero
  have e1 : Real.pi * (1 / (4 * β)) * (1 - β) = Real.pi / (4 * β) - Real.pi / 4 := by field_simp
  have e2 : Real.pi * (1 / (4 * β)) * (1 + β) = Real.pi / (4 * β) + Real.pi / 4 := by field_simp
  have e3 : 4 * β * (1 / (4 * β)) = 1 := by field_simp
  have s2 : Real.sqrt 2 * Real.sqrt 2 = 2 := Real.mul_self_sqrt (by norm_num)
  have s0 : Real.sqrt 2 ≠ 0 := by positivity
  have hv : rootRaisedCosine β (1 / (4 * β)) = β / Real.sqrt 2 * ((1 + 2 / Real.pi) * Real.sin (Real.pi / (4 * β)) +
      (1 - 2 / Real.pi) * Real.cos (Real.pi / (4 * β))) := by
    unfold rootRaisedCosine
    rw [if_neg hc.ne', if_pos ⟨hβ.ne', abs_of_pos hc⟩]
  have hf : HasDerivAt (fun t => Real.sin (Real.pi * t * (1 - β)) + 4 * β * t * Real.cos (Real.pi * t * (1 + β)))
      (Real.cos (Real.pi / (4 * β) - Real.pi / 4) * (Real.pi * (1 - β)) +
        (4 * β * Real.cos (Real.pi / (4 * β) + Real.pi / 4) -
          Real.sin (Real.pi / (4 * β) + Real.pi / 4) * (Real.pi * (1 + β)))) (1 / (4 * β)) := by
    have h1 := (((hasDerivAt_id (1 / (4 * β))).const_mul Real.pi).mul_const (1 - β)).sin
    have h2 := ((hasDerivAt_id (1 / (4 * β))).const_mul (4 * β)).mul
      (((hasDerivAt_id (1 / (4 * β))).const_mul Real.pi).mul_const (1 + β)).cos
    refine (h1.add h2).congr_deriv ?_
    simp only [id, e1, e2, e3]
    ring
  have hg : HasDerivAt (fun t => Real.pi * t * (1 - (4 * β * t) ^ 2)) (-(2 * Real.pi)) (1 / (4 * β)) := by
    have h1 := ((hasDerivAt_id (1 / (4 * β))).const_mul Real.pi).mul
      ((((hasDerivAt_id (1 / (4 * β))).const_mul (4 * β)).pow 2).const_sub 1)
    refine h1.congr_deriv ?_
    simp only [id, Pi.pow_apply, e3]
    field_simp
    norm_num
  have hz : Real.sin (Real.pi / (4 * β) - Real.pi / 4) + Real.cos (Real.pi / (4 * β) + Real.pi / 4) = 0 := by
    rw [Real.sin_sub, Real.cos_add, Real.sin_pi_div_four, Real.cos_pi_div_four]; ring
  have h := tendsto_div_of_deriv hf hg (by
      show Real.sin (Real.pi * (1 / (4 * β)) * (1 - β)) +
        4 * β * (1 / (4 * β)) * Real.cos (Real.pi * (1 / (4 * β)) * (1 + β)) = 0
      rw [e1, e2, e3, one_mul, hz]) (by
      show Real.pi * (1 / (4 * β)) * (1 - (4 * β * (1 / (4 * β))) ^ 2) = 0
      rw [e3]; ring) (by simp)
  have hval : (Real.cos (Real.pi / (4 * β) - Real.pi / 4) * (Real.pi * (1 - β)) +
        (4 * β * Real.cos (Real.pi / (4 * β) + Real.pi / 4) -
          Real.sin (Real.pi / (4 * β) + Real.pi / 4) * (Real.pi * (1 + β)))) / -(2 * Real.pi) =
      β / Real.sqrt 2 * ((1 + 2 / Real.pi) * Real.sin (Real.pi / (4 * β)) +
      (1 - 2 / Real.pi) * Real.cos (Real.pi / (4 * β))) := by
    rw [Real.cos_sub, Real.cos_add, Real.sin_add, Real.sin_pi_div_four, Real.cos_pi_div_four]
    have : β / Real.sqrt 2 = β * Real.sqrt 2 / 2 := by
      rw [div_eq_div_iff s0 (by norm_num)]; rw [mul_assoc, s2]
    rw [this]
    generalize Real.sin (Real.pi / (4 * β)) = S
    generalize Real.cos (Real.pi / (4 * β)) = C
    rw [div_eq_iff (by simp)]
    field_simp
    ring
  rw [hv, ← hval]
  refine h.congr' ?_
  filter_upwards [abs_ne_near hc, nhdsWithin_le_nhds (lt_mem_nhds hc)] with t ht h0
  unfold rootRaisedCosine
  rw [if_neg h0.ne', if_neg (fun hh => ht hh.2)]

theorem rootRaisedCosine_off {β : ℝ} (hβ : 0 ≤ β) (t : ℝ) (h0 : t ≠ 0) (ht : ¬ (β ≠ 0 ∧ |t| = 1 / (4 * β))) :
    ContinuousAt (rootRaisedCosine β) t := by
  have hd : 1 - (4 * β * t) ^ 2 ≠ 0 := by
    intro hz
    have h1 : (4 * β * t) ^ 2 = 1 := by linarith
    have h2 : |4 * β * t| = 1 := abs_eq_one_of_sq h1
    have hb : β ≠ 0 := by rintro rfl; simp at h2
    rw [abs_mul, abs_mul, abs_of_nonneg hβ, show |(4 : ℝ)| = 4 by norm_num] at h2
    refine ht ⟨hb, ?_⟩
    rw [eq_div_iff (by positivity)]; linarith
  have hc : ContinuousAt (fun t => (Real.sin (Real.pi * t * (1 - β)) + 4 * β * t * Real.cos (Real.pi * t * (1 + β))) /
      (Real.pi * t * (1 - (4 * β * t) ^ 2))) t := by
    refine ContinuousAt.div (by fun_prop) (by fun_prop) ?_
    exact mul_ne_zero (mul_ne_zero Real.pi_ne_zero h0) hd
  refine hc.congr ?_
  have hn0 : ∀ᶠ u : ℝ in 𝓝 t, u ≠ 0 := continuousAt_id.eventually_ne h0
  by_cases hb : β = 0
  · filter_upwards [hn0] with u hu
    unfold rootRaisedCosine; rw [if_neg hu, if_neg (fun h => h.1 hb)]
  · have : ∀ᶠ u in 𝓝 t, |u| ≠ 1 / (4 * β) :=
      continuous_abs.continuousAt.eventually_ne (fun h => ht ⟨hb, h⟩)
    filter_upwards [hn0, this] with u hu0 hu
    unfold rootRaisedCosine; rw [if_neg hu0, if_neg (fun h => hu h.2)]

/-- C92, taps of root raised cosines: they are even and depend continuously on time, so that both separate values are the
limits of the quotient. -/
theorem C92_root_raised_cosine (β : ℝ) (hβ : 0 ≤ β) :
    Continuous (rootRaisedCosine β) ∧ (∀ t, rootRaisedCosine β (-t) = rootRaisedCosine β t) ∧
      ∀ t, t ≠ 0 → 4 * β * |t| ≠ 1 → rootRaisedCosine β t * (Real.pi * t * (1 - (4 * β * t) ^ 2)) =
        Real.sin (Real.pi * t * (1 - β)) + 4 * β * t * Real.cos (Real.pi * t * (1 + β)) := by
  refine ⟨continuous_iff_continuousAt.mpr fun t => ?_, rootRaisedCosine_even β, ?_⟩
  · by_cases h0 : t = 0
    · rw [h0]; exact rootRaisedCosine_zero β hβ
    · by_cases h : β ≠ 0 ∧ |t| = 1 / (4 * β)
      · have hb : 0 < β := lt_of_le_of_ne hβ (Ne.symm h.1)
        rcases (abs_eq (by positivity : (0 : ℝ) ≤ 1 / (4 * β))).mp h.2 with e | e
        · rw [e]; exact rootRaisedCosine_at hb
        · rw [e]; exact continuousAt_neg_of_even (rootRaisedCosine_even β) (rootRaisedCosine_at hb)
      · exact rootRaisedCosine_off hβ t h0 h
  · intro t h0 h1
    have hd : 1 - (4 * β * t) ^ 2 ≠ 0 := by
      intro hz
      have hz' : (4 * β * t) ^ 2 = 1 := by linarith
      have h2 : |4 * β * t| = 1 := abs_eq_one_of_sq hz'
      rw [abs_mul, abs_mul, abs_of_nonneg hβ, show |(4 : ℝ)| = 4 by norm_num] at h2
      exact h1 h2
    unfold rootRaisedCosine
    rw [if_neg h0, if_neg (by
      rintro ⟨hb, h⟩
      apply h1; rw [h]; field_simp)]
    rw [div_mul_cancel₀]
    exact mul_ne_zero (mul_ne_zero Real.pi_ne_zero h0) hd

/-- For a roll-off of one half the raised cosine has its separate value at time one. -/
example : raisedCosine (1 / 2) 1 = 0 ∧ raisedCosine (1 / 2) 0 = 1 ∧ Continuous (raisedCosine (1 / 2)) :=
  ⟨by unfold raisedCosine; rw [if_pos (by norm_num)]
      have : sinc (1 / (2 * (1 / 2))) = 0 := by
        rw [show (1 : ℝ) / (2 * (1 / 2)) = ((1 : ℤ) : ℝ) by norm_num]; exact sinc_int 1 (by norm_num)
      rw [this, mul_zero], (C92_raised_cosine (1 / 2) (by norm_num)).2.2.1, (C92_raised_cosine (1 / 2) (by norm_num)).1⟩

end Verif.SingleCarrier
