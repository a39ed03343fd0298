import Mathlib.MeasureTheory.Integral.Pi
import Mathlib.Analysis.SpecialFunctions.Integrals.Basic
import Mathlib.Analysis.Complex.Trigonometric

/-!
# Independent uniformly distributed phases

Several channel models add sinusoids whose phases are independent and uniformly distributed over one
turn: `channel/consistent.py` 458 (`rng.uniform(0, 2 * np.pi, ...)`) and `channel/fading/fading.py` 498-499
(`-np.pi + 2 * np.pi * uniform`). This module holds the law of such phases and their moments. It models no
code by itself; the theorems about the code quantify over it.
-/

namespace Verif.Phases

open MeasureTheory Complex

/-- The uniform law on `(c, c + 2π]`. -/
noncomputable def turn (c : ℝ) : Measure ℝ :=
  (ENNReal.ofReal (2 * Real.pi))⁻¹ • volume.restrict (Set.Ioc c (c + 2 * Real.pi))

theorem two_pi_ne : ENNReal.ofReal (2 * Real.pi) ≠ 0 := by
  simp [Real.pi_pos]

instance (c : ℝ) : IsProbabilityMeasure (turn c) := by
  constructor
  simp only [turn, Measure.smul_apply, Measure.restrict_apply MeasurableSet.univ, Set.univ_inter,
    Real.volume_Ioc, add_sub_cancel_left, smul_eq_mul]
  exact ENNReal.inv_mul_cancel two_pi_ne ENNReal.ofReal_ne_top

theorem integral_turn (c : ℝ) (f : ℝ → ℂ) :
    ∫ x, f x ∂turn c = (2 * Real.pi)⁻¹ • ∫ x in c..(c + 2 * Real.pi), f x := by
  have hpi := Real.two_pi_pos
  rw [turn, integral_smul_measure, intervalIntegral.integral_of_le (by linarith)]
  rw [ENNReal.toReal_inv, ENNReal.toReal_ofReal hpi.le]

/-- The characters integrate to zero unless they are constant. -/
theorem integral_char (c : ℝ) (n : ℤ) :
    ∫ x, cexp (I * (n * x)) ∂turn c = if n = 0 then 1 else 0 := by
  rw [integral_turn]
  by_cases h : n = 0
  · subst h
    have : (Real.pi : ℂ) ≠ 0 := by exact_mod_cast Real.pi_ne_zero
    simp
    field_simp
  · rw [if_neg h]
    have hn : (I * n : ℂ) ≠ 0 := mul_ne_zero I_ne_zero (by exact_mod_cast h)
    have e : ∀ x : ℝ, cexp (I * (n * x)) = cexp ((I * n) * x) := fun x => by rw [mul_assoc]
    simp only [e]
    rw [integral_exp_mul_complex hn]
    have : cexp (I * n * ((c + 2 * Real.pi : ℝ) : ℂ)) = cexp (I * n * c) := by
      have : I * n * ((c + 2 * Real.pi : ℝ) : ℂ) = I * n * c + n * (2 * Real.pi * I) := by
        push_cast; ring
      rw [this, Complex.exp_add, Complex.exp_int_mul_two_pi_mul_I, mul_one]
    rw [this, sub_self, zero_div, smul_zero]

variable {ι : Type} [Fintype ι]

/-- Independent phases: the product of the uniform laws. -/
noncomputable def turns (ι : Type) [Fintype ι] (c : ℝ) : Measure (ι → ℝ) :=
  Measure.pi fun _ : ι => turn c

noncomputable instance (c : ℝ) : IsProbabilityMeasure (turns ι c) := by
  unfold turns; infer_instance

/-- All mixed moments of independent phases. -/
theorem integral_chars (c : ℝ) (n : ι → ℤ) :
    ∫ x, cexp (I * ∑ i, n i * (x i : ℂ)) ∂turns ι c = if n = 0 then 1 else 0 := by
  have e : ∀ x : ι → ℝ, cexp (I * ∑ i, n i * (x i : ℂ)) = ∏ i, cexp (I * (n i * (x i : ℂ))) := by
    intro x
    rw [Finset.mul_sum, Complex.exp_sum]
  simp only [e, turns]
  rw [integral_fintype_prod_eq_prod (fun i (x : ℝ) => cexp (I * (n i * (x : ℂ))))]
  simp only [integral_char]
  split_ifs with h
  · subst h; simp
  · obtain ⟨i, hi⟩ := Function.ne_iff.mp h
    exact Finset.prod_eq_zero (Finset.mem_univ i) (if_neg hi)

theorem integrable_chars (c : ℝ) (n : ι → ℤ) :
    Integrable (fun x : ι → ℝ => cexp (I * ∑ i, n i * (x i : ℂ))) (turns ι c) := by
  refine Integrable.of_bound (C := 1) (Continuous.aestronglyMeasurable (by fun_prop)) (Filter.Eventually.of_forall fun x => ?_)
  have : I * ∑ i, (n i : ℂ) * (x i : ℂ) = ((∑ i, (n i : ℝ) * x i : ℝ) : ℂ) * I := by
    push_cast; ring
  rw [this, Complex.norm_exp_ofReal_mul_I]

variable [DecidableEq ι]

theorem sum_single (i : ι) (k : ℤ) (x : ι → ℝ) :
    ∑ j, ((Pi.single i k : ι → ℤ) j : ℂ) * (x j : ℂ) = k * x i := by
  rw [Finset.sum_eq_single i]
  · simp
  · intro j _ hj; simp [Pi.single_eq_of_ne hj]
  · simp

/-- The mean of one rotating phasor is zero. -/
theorem integral_one (c : ℝ) (i : ι) : ∫ x, cexp (I * (x i : ℂ)) ∂turns ι c = 0 := by
  have := integral_chars c (Pi.single i (1 : ℤ))
  simp only [sum_single] at this
  simpa using this

theorem integrable_one (c : ℝ) (i : ι) : Integrable (fun x : ι → ℝ => cexp (I * (x i : ℂ))) (turns ι c) := by
  have := integrable_chars c (Pi.single i (1 : ℤ))
  simp only [sum_single] at this
  simpa using this

/-- Two phasors of independent phases are uncorrelated. -/
theorem integral_diff (c : ℝ) (i j : ι) :
    ∫ x, cexp (I * ((x i : ℂ) - (x j : ℂ))) ∂turns ι c = if i = j then 1 else 0 := by
  have := integral_chars c (Pi.single i (1 : ℤ) + Pi.single j (-1))
  simp only [Pi.add_apply, Int.cast_add, add_mul, Finset.sum_add_distrib, sum_single] at this
  have e : ∀ x : ι → ℝ, ((1 : ℤ) : ℂ) * (x i : ℂ) + ((-1 : ℤ) : ℂ) * (x j : ℂ) = (x i : ℂ) - (x j : ℂ) := by
    intro x; push_cast; ring
  simp only [e] at this
  rw [this]
  by_cases h : i = j
  · subst h
    rw [if_pos rfl, if_pos]
    ext k; by_cases hk : k = i
    · subst hk; simp
    · simp [Pi.single_eq_of_ne hk]
  · rw [if_neg h, if_neg]
    intro h0
    have := congrFun h0 i
    simp [Pi.single_eq_of_ne h] at this

theorem integrable_diff (c : ℝ) (i j : ι) :
    Integrable (fun x : ι → ℝ => cexp (I * ((x i : ℂ) - (x j : ℂ)))) (turns ι c) := by
  have := integrable_chars c (Pi.single i (1 : ℤ) + Pi.single j (-1))
  simp only [Pi.add_apply, Int.cast_add, add_mul, Finset.sum_add_distrib, sum_single] at this
  have e : ∀ x : ι → ℝ, ((1 : ℤ) : ℂ) * (x i : ℂ) + ((-1 : ℤ) : ℂ) * (x j : ℂ) = (x i : ℂ) - (x j : ℂ) := by
    intro x; push_cast; ring
  simpa only [e] using this

/-- The product of two phasors has mean zero, also for equal phases. -/
theorem integral_sum (c : ℝ) (i j : ι) :
    ∫ x, cexp (I * ((x i : ℂ) + (x j : ℂ))) ∂turns ι c = 0 := by
  have := integral_chars c (Pi.single i (1 : ℤ) + Pi.single j 1)
  simp only [Pi.add_apply, Int.cast_add, add_mul, Finset.sum_add_distrib, sum_single] at this
  simp only [Int.cast_one, one_mul] at this
  rw [this, if_neg]
  intro h0
  have := congrFun h0 i
  by_cases h : i = j
  · subst h; simp at this
  · simp [Pi.single_eq_of_ne h] at this

theorem integrable_sum (c : ℝ) (i j : ι) :
    Integrable (fun x : ι → ℝ => cexp (I * ((x i : ℂ) + (x j : ℂ)))) (turns ι c) := by
  have := integrable_chars c (Pi.single i (1 : ℤ) + Pi.single j 1)
  simp only [Pi.add_apply, Int.cast_add, add_mul, Finset.sum_add_distrib, sum_single] at this
  simpa only [Int.cast_one, one_mul] using this

/-- A sum of phasors with deterministic complex weights has mean zero ... -/
theorem mean_phasors (c : ℝ) (w : ι → ℂ) :
    ∫ x, ∑ i, w i * cexp (I * (x i : ℂ)) ∂turns ι c = 0 := by
  rw [integral_finsetSum _ fun i _ => (integrable_one c i).const_mul _]
  simp only [integral_const_mul, integral_one, mul_zero, Finset.sum_const_zero]

/-- ... and two such sums correlate as their weights do. -/
theorem corr_phasors (c : ℝ) (v w : ι → ℂ) :
    ∫ x, (∑ i, v i * cexp (I * (x i : ℂ))) * star (∑ i, w i * cexp (I * (x i : ℂ))) ∂turns ι c =
      ∑ i, v i * star (w i) := by
  have e : ∀ x : ι → ℝ, (∑ i, v i * cexp (I * (x i : ℂ))) * star (∑ i, w i * cexp (I * (x i : ℂ))) =
      ∑ i, ∑ j, v i * star (w j) * cexp (I * ((x i : ℂ) - (x j : ℂ))) := by
    intro x
    rw [star_sum, Finset.sum_mul_sum]
    refine Finset.sum_congr rfl fun i _ => Finset.sum_congr rfl fun j _ => ?_
    have : star (cexp (I * (x j : ℂ))) = cexp (-(I * (x j : ℂ))) := by
      change (starRingEnd ℂ) _ = _
      rw [← Complex.exp_conj]; simp
    rw [star_mul', this, mul_sub, sub_eq_add_neg, Complex.exp_add]
    ring
  simp only [e]
  rw [integral_finsetSum _ fun i _ => integrable_finsetSum _ fun j _ =>
    (integrable_diff c i j).const_mul _]
  refine Finset.sum_congr rfl fun i _ => ?_
  rw [integral_finsetSum _ fun j _ => (integrable_diff c i j).const_mul _]
  simp only [integral_const_mul, integral_diff]
  simp

/-- ... while their unconjugated products vanish in the mean. -/
theorem pseudo_phasors (c : ℝ) (v w : ι → ℂ) :
    ∫ x, (∑ i, v i * cexp (I * (x i : ℂ))) * (∑ i, w i * cexp (I * (x i : ℂ))) ∂turns ι c = 0 := by
  have e : ∀ x : ι → ℝ, (∑ i, v i * cexp (I * (x i : ℂ))) * (∑ i, w i * cexp (I * (x i : ℂ))) =
      ∑ i, ∑ j, v i * w j * cexp (I * ((x i : ℂ) + (x j : ℂ))) := by
    intro x
    rw [Finset.sum_mul_sum]
    refine Finset.sum_congr rfl fun i _ => Finset.sum_congr rfl fun j _ => ?_
    rw [mul_add, Complex.exp_add]
    ring
  simp only [e]
  rw [integral_finsetSum _ fun i _ => integrable_finsetSum _ fun j _ =>
    (integrable_sum c i j).const_mul _]
  refine Finset.sum_eq_zero fun i _ => ?_
  rw [integral_finsetSum _ fun j _ => (integrable_sum c i j).const_mul _]
  simp only [integral_const_mul, integral_sum, mul_zero, Finset.sum_const_zero]

omit [DecidableEq ι] in
theorem phasors_re (p u x : ι → ℝ) : ∑ i, p i * Real.cos (u i + x i) =
    (∑ i, (p i * cexp (I * (u i : ℂ))) * cexp (I * (x i : ℂ))).re := by
  rw [Complex.re_sum]
  refine Finset.sum_congr rfl fun i _ => ?_
  rw [mul_assoc, ← Complex.exp_add]
  have : I * (u i : ℂ) + I * (x i : ℂ) = ((u i + x i : ℝ) : ℂ) * I := by push_cast; ring
  rw [this, Complex.re_ofReal_mul, Complex.exp_ofReal_mul_I_re]

omit [DecidableEq ι] in
theorem phasors_bound (p u x : ι → ℝ) :
    ‖∑ i, (p i * cexp (I * (u i : ℂ))) * cexp (I * (x i : ℂ))‖ ≤ ∑ i, |p i| := by
  refine (norm_sum_le _ _).trans (Finset.sum_le_sum fun i _ => ?_)
  rw [mul_assoc, ← Complex.exp_add]
  have : I * (u i : ℂ) + I * (x i : ℂ) = ((u i + x i : ℝ) : ℂ) * I := by push_cast; ring
  rw [this, norm_mul, Complex.norm_exp_ofReal_mul_I, mul_one, Complex.norm_real, Real.norm_eq_abs]

/-- Weighted sums of cosines of independent phases: mean zero. -/
theorem mean_cos (c : ℝ) (p u : ι → ℝ) : ∫ x, ∑ i, p i * Real.cos (u i + x i) ∂turns ι c = 0 := by
  have h := mean_phasors c fun i => p i * cexp (I * (u i : ℂ))
  simp only [phasors_re]
  have := congrArg Complex.re h
  rw [Complex.zero_re] at this
  rw [← this]
  exact integral_re (𝕜 := ℂ) (integrable_finsetSum _ fun i _ => (integrable_one c i).const_mul _)

/-- ... and correlation half the weighted sum of the cosines of the deterministic differences. -/
theorem corr_cos (c : ℝ) (p q u v : ι → ℝ) :
    ∫ x, (∑ i, p i * Real.cos (u i + x i)) * (∑ i, q i * Real.cos (v i + x i)) ∂turns ι c =
      (∑ i, p i * q i * Real.cos (u i - v i)) / 2 := by
  have h1 := corr_phasors c (fun i => p i * cexp (I * (u i : ℂ))) (fun i => q i * cexp (I * (v i : ℂ)))
  have h2 := pseudo_phasors c (fun i => p i * cexp (I * (u i : ℂ))) (fun i => q i * cexp (I * (v i : ℂ)))
  have e : ∀ x : ι → ℝ, (∑ i, p i * Real.cos (u i + x i)) * (∑ i, q i * Real.cos (v i + x i)) =
      (((∑ i, (p i * cexp (I * (u i : ℂ))) * cexp (I * (x i : ℂ))) *
          star (∑ i, (q i * cexp (I * (v i : ℂ))) * cexp (I * (x i : ℂ))) +
        (∑ i, (p i * cexp (I * (u i : ℂ))) * cexp (I * (x i : ℂ))) *
          (∑ i, (q i * cexp (I * (v i : ℂ))) * cexp (I * (x i : ℂ)))) / 2).re := by
    intro x
    rw [phasors_re p u x, phasors_re q v x]
    generalize (∑ i, (p i * cexp (I * (u i : ℂ))) * cexp (I * (x i : ℂ))) = a
    generalize (∑ i, (q i * cexp (I * (v i : ℂ))) * cexp (I * (x i : ℂ))) = b
    have : (star b : ℂ) = (starRingEnd ℂ) b := rfl
    rw [this, ← mul_add, add_comm, Complex.add_conj]
    have : a * ((2 * b.re : ℝ) : ℂ) / 2 = a * ((b.re : ℝ) : ℂ) := by push_cast; ring
    rw [this, Complex.re_mul_ofReal]
  have i1 : Integrable (fun x : ι → ℝ => (∑ i, (p i * cexp (I * (u i : ℂ))) * cexp (I * (x i : ℂ))) *
      star (∑ i, (q i * cexp (I * (v i : ℂ))) * cexp (I * (x i : ℂ)))) (turns ι c) := by
    refine Integrable.of_bound (C := (∑ i, |p i|) * ∑ i, |q i|) ?_
      (Filter.Eventually.of_forall fun x => ?_)
    · exact Continuous.aestronglyMeasurable (by fun_prop)
    · rw [norm_mul, norm_star]
      exact mul_le_mul (phasors_bound p u x) (phasors_bound q v x) (norm_nonneg _) (by positivity)
  have i2 : Integrable (fun x : ι → ℝ => (∑ i, (p i * cexp (I * (u i : ℂ))) * cexp (I * (x i : ℂ))) *
      (∑ i, (q i * cexp (I * (v i : ℂ))) * cexp (I * (x i : ℂ)))) (turns ι c) := by
    refine Integrable.of_bound (C := (∑ i, |p i|) * ∑ i, |q i|) ?_
      (Filter.Eventually.of_forall fun x => ?_)
    · exact Continuous.aestronglyMeasurable (by fun_prop)
    · rw [norm_mul]
      exact mul_le_mul (phasors_bound p u x) (phasors_bound q v x) (norm_nonneg _) (by positivity)
  simp only [e]
  refine (integral_re (𝕜 := ℂ) ((i1.add i2).div_const 2)).trans ?_
  have : ∫ x, ((∑ i, (p i * cexp (I * (u i : ℂ))) * cexp (I * (x i : ℂ))) *
      star (∑ i, (q i * cexp (I * (v i : ℂ))) * cexp (I * (x i : ℂ))) +
      (∑ i, (p i * cexp (I * (u i : ℂ))) * cexp (I * (x i : ℂ))) *
      (∑ i, (q i * cexp (I * (v i : ℂ))) * cexp (I * (x i : ℂ)))) / 2 ∂turns ι c =
      (∑ i, (p i * cexp (I * (u i : ℂ))) * star (q i * cexp (I * (v i : ℂ)))) / 2 := by
    rw [integral_div, integral_add i1 i2, h1, h2, add_zero]
  refine (congrArg Complex.re this).trans ?_
  have h3 : ∀ i, (p i * cexp (I * (u i : ℂ))) * star (q i * cexp (I * (v i : ℂ))) =
      ((p i * q i : ℝ) : ℂ) * cexp (((u i - v i : ℝ) : ℂ) * I) := by
    intro i
    have h4 : star (cexp (I * (v i : ℂ))) = cexp (-(I * (v i : ℂ))) := by
      change (starRingEnd ℂ) _ = _
      rw [← Complex.exp_conj]; simp
    have h5 : star (q i : ℂ) = q i := Complex.conj_ofReal _
    have h6 : (((u i - v i : ℝ) : ℂ) * I) = I * (u i : ℂ) + -(I * (v i : ℂ)) := by push_cast; ring
    rw [star_mul', h4, h5, h6, Complex.exp_add]
    push_cast; ring
  simp only [h3]
  rw [show (2 : ℂ) = ((2 : ℝ) : ℂ) by norm_num, Complex.div_ofReal_re, Complex.re_sum]
  simp only [Complex.re_ofReal_mul, Complex.exp_ofReal_mul_I_re]

end Verif.Phases
