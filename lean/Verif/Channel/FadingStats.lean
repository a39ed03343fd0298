import Verif.Channel.Fading
import Mathlib.Analysis.SpecialFunctions.Pow.Real
import Mathlib.MeasureTheory.Integral.IntervalIntegral.Periodic

/-!
# Statistics of multipath fading samples

Moments of the model of `hermespy/channel/fading/fading.py` in `Verif.Channel.Fading` when its phases and angles are
what the code draws them to be: independent and uniformly distributed (fading.py 476-499; see C74 for the laws of
the variables themselves).
-/

namespace Verif.Fading

open Finset MeasureTheory Verif.Channel.State Verif.Phases

/-- The sample with the phases `x`: of the line of sight of every path at `none`, of its sinusoids at `some`. -/
noncomputable def Sample.withPhases (s : Sample) (x : Fin s.paths × Option (Fin s.sinus) → ℝ) : Sample :=
  { s with
    losPhase := fun p => if h : p < s.paths then x (⟨p, h⟩, none) else 0
    nlosPhase := fun p n => if h : p < s.paths ∧ n < s.sinus then x (⟨p, h.1⟩, some ⟨n, h.2⟩) else 0 }

/-- Deterministic weight of one phasor of a path. -/
noncomputable def weight (s : Sample) (p i : Nat) : Option (Fin s.sinus) → ℂ
  | none => (Real.sqrt (s.gain * s.power p) : ℂ) * ((s.losGain p : ℂ) * Complex.exp (Complex.I *
      ((s.losDoppler * (i / (s.bandwidth : ℝ)) * Real.cos (s.losAngle p) : ℝ) : ℂ)))
  | some n => (Real.sqrt (s.gain * s.power p) : ℂ) * ((s.nlosGain p : ℂ) * Complex.exp (Complex.I *
      ((s.nlosDoppler * (i / (s.bandwidth : ℝ)) *
        Real.cos ((2 * Real.pi * (1 + (n : Nat)) + s.nlosAngle p n) / s.sinus) : ℝ) : ℂ)))

theorem exp_split (a b : ℂ) (u v : ℝ) : a * (b * Complex.exp (Complex.I * ((u + v : ℝ) : ℂ))) =
    a * (b * Complex.exp (Complex.I * (u : ℂ))) * Complex.exp (Complex.I * (v : ℂ)) := by
  push_cast
  rw [mul_add, Complex.exp_add]
  ring

theorem impulse_phases (s : Sample) (x : Fin s.paths × Option (Fin s.sinus) → ℝ) (p : Fin s.paths) (i : Nat) :
    (s.withPhases x).impulse p i = ∑ o, weight s p i o * Complex.exp (Complex.I * (x (p, o) : ℂ)) := by
  rw [Fintype.sum_option]
  simp only [Sample.impulse, Sample.withPhases, weight]
  rw [mul_add, add_comm]
  congr 1
  · rw [dif_pos p.2, exp_split]
  · rw [Finset.sum_range, Finset.mul_sum, Finset.mul_sum]
    refine Finset.sum_congr rfl fun n _ => ?_
    rw [dif_pos ⟨p.2, n.2⟩, exp_split]

theorem exp_phase (u v : ℝ) : Complex.exp (Complex.I * (u : ℂ)) * star (Complex.exp (Complex.I * (v : ℂ))) =
    Complex.exp (Complex.I * ((u - v : ℝ) : ℂ)) := by
  have : star (Complex.exp (Complex.I * (v : ℂ))) = Complex.exp (-(Complex.I * (v : ℂ))) := by
    change (starRingEnd ℂ) _ = _
    rw [← Complex.exp_conj]; simp
  rw [this, ← Complex.exp_add]
  congr 1
  push_cast
  ring

theorem star_real (a : ℝ) : star (a : ℂ) = a := Complex.conj_ofReal a

theorem weight_corr (s : Sample) (p i j : Nat) (h : 0 ≤ s.gain * s.power p) :
    ∑ o, weight s p i o * star (weight s p j o) = ((s.gain * s.power p : ℝ) : ℂ) *
      ((s.losGain p : ℂ) ^ 2 * Complex.exp (Complex.I *
          ((s.losDoppler * (((i : ℝ) - j) / (s.bandwidth : ℝ)) * Real.cos (s.losAngle p) : ℝ) : ℂ)) +
        (s.nlosGain p : ℂ) ^ 2 * ∑ n ∈ range s.sinus, Complex.exp (Complex.I *
          ((s.nlosDoppler * (((i : ℝ) - j) / (s.bandwidth : ℝ)) *
            Real.cos ((2 * Real.pi * (1 + n) + s.nlosAngle p n) / s.sinus) : ℝ) : ℂ))) := by
  have hs : (Real.sqrt (s.gain * s.power p) : ℂ) * (Real.sqrt (s.gain * s.power p) : ℂ) =
      ((s.gain * s.power p : ℝ) : ℂ) := by
    rw [← Complex.ofReal_mul, Real.mul_self_sqrt h]
  have key : ∀ (g u v : ℝ), (Real.sqrt (s.gain * s.power p) : ℂ) * ((g : ℂ) * Complex.exp (Complex.I * (u : ℂ))) *
      star ((Real.sqrt (s.gain * s.power p) : ℂ) * ((g : ℂ) * Complex.exp (Complex.I * (v : ℂ)))) =
      ((s.gain * s.power p : ℝ) : ℂ) * ((g : ℂ) ^ 2 * Complex.exp (Complex.I * ((u - v : ℝ) : ℂ))) := by
    intro g u v
    rw [← exp_phase, ← hs, star_mul', star_mul', star_real, star_real]
    ring
  rw [Fintype.sum_option, Finset.sum_range, mul_add]
  congr 1
  · simp only [weight]
    rw [key]
    ring_nf
  · rw [Finset.mul_sum, Finset.mul_sum]
    refine Finset.sum_congr rfl fun n _ => ?_
    simp only [weight]
    rw [key]
    ring_nf

/-- C75: fading is zero mean, uncorrelated between paths and stationary. Over independent uniformly distributed
phases every path has mean zero, different paths are uncorrelated, and the correlation of one path at two times
depends on the time between them only; the line of sight contributes one line to the Doppler spectrum, the
sinusoids one each. -/
theorem C75_wssus (s : Sample) (c : ℝ) (hg : 0 ≤ s.gain) (hp : ∀ p, 0 ≤ s.power p) (p q : Fin s.paths) (i j : Nat) :
    ∫ x, (s.withPhases x).impulse p i ∂turns _ c = 0 ∧
    ∫ x, (s.withPhases x).impulse p i * star ((s.withPhases x).impulse q j) ∂turns _ c =
      if p = q then ((s.gain * s.power p : ℝ) : ℂ) *
        ((s.losGain p : ℂ) ^ 2 * Complex.exp (Complex.I *
            ((s.losDoppler * (((i : ℝ) - j) / (s.bandwidth : ℝ)) * Real.cos (s.losAngle p) : ℝ) : ℂ)) +
          (s.nlosGain p : ℂ) ^ 2 * ∑ n ∈ range s.sinus, Complex.exp (Complex.I *
            ((s.nlosDoppler * (((i : ℝ) - j) / (s.bandwidth : ℝ)) *
              Real.cos ((2 * Real.pi * (1 + n) + s.nlosAngle p n) / s.sinus) : ℝ) : ℂ)))
      else 0 := by
  classical
  have e : ∀ (x : Fin s.paths × Option (Fin s.sinus) → ℝ) (p : Fin s.paths) (i : Nat), (s.withPhases x).impulse p i =
      ∑ k : Fin s.paths × Option (Fin s.sinus), (if k.1 = p then weight s p i k.2 else 0) *
        Complex.exp (Complex.I * (x k : ℂ)) := by
    intro x p i
    rw [impulse_phases, Fintype.sum_prod_type, Finset.sum_eq_single p]
    · simp
    · intro b _ hb
      simp [hb]
    · simp
  constructor
  · simp only [e]
    exact mean_phasors c _
  · simp only [e]
    rw [corr_phasors, Fintype.sum_prod_type]
    by_cases h : p = q
    · subst h
      rw [if_pos rfl, ← weight_corr s p i j (mul_nonneg hg (hp p)), Finset.sum_eq_single p]
      · simp
      · intro b _ hb
        simp [hb]
      · simp
    · rw [if_neg h]
      refine Finset.sum_eq_zero fun b _ => Finset.sum_eq_zero fun o _ => ?_
      by_cases hb : b = p
      · rw [if_neg (show ¬ b = q from fun hq => h (hb.symm.trans hq)), star_zero, mul_zero]
      · rw [if_neg hb, zero_mul]

/-- A Rician sample: gains of factor one over two sinusoids. -/
example : ∃ s : Sample, 0 ≤ s.gain ∧ (∀ p, 0 ≤ s.power p) ∧ 1 < s.paths ∧ 1 < s.sinus :=
  ⟨demo, by norm_num [demo], fun p => by norm_num [demo], by norm_num [demo], by norm_num [demo]⟩

/-! ## Energy -/

/-- What arrives at antenna `r` before fading: the signals of all transmit antennas through the spatial response. -/
noncomputable def mixed (s : Sample) (x : Sig ℂ) (r i : Nat) : ℂ := ∑ t ∈ range x.streams, s.resp r t * x.val t i

theorem window_sum {α : Type} [AddCommMonoid α] (d n M : Nat) (h : d ≤ M) (f : Nat → α) :
    ∑ m ∈ range (n + M), (if d ≤ m ∧ m < d + n then f (m - d) else 0) = ∑ i ∈ range n, f i := by
  have hsplit : n + M = d + (n + (M - d)) := by omega
  rw [hsplit, Finset.sum_range_add, Finset.sum_range_add]
  have h1 : ∑ m ∈ range d, (if d ≤ m ∧ m < d + n then f (m - d) else 0) = 0 :=
    Finset.sum_eq_zero fun m hm => if_neg (by have := Finset.mem_range.mp hm; omega)
  have h3 : ∑ m ∈ range (M - d), (if d ≤ d + (n + m) ∧ d + (n + m) < d + n then f (d + (n + m) - d) else 0) = 0 :=
    Finset.sum_eq_zero fun m _ => if_neg (by omega)
  rw [h1, h3, zero_add, add_zero]
  refine Finset.sum_congr rfl fun i hi => ?_
  have := Finset.mem_range.mp hi
  rw [if_pos (by omega), Nat.add_sub_cancel_left]

theorem mul_star_eq (z : ℂ) : z * star z = (Complex.normSq z : ℂ) := Complex.mul_conj z

/-- C75: `expected_energy_scale` is the expected energy. For gains that split unit power between line of sight and
sinusoids, the energy arriving at every receiving antenna is, over independent uniformly distributed phases of all
paths, in the mean the energy scale times the energy the spatial response delivers there. -/
theorem C75_energy (s : Sample) (c : ℝ) (x : Sig ℂ) (hb : 0 ≤ s.bandwidth) (hg : 0 ≤ s.gain) (hp : ∀ p, 0 ≤ s.power p)
    (hu : ∀ p < s.paths, s.losGain p ^ 2 + s.sinus * s.nlosGain p ^ 2 = 1) (hx : x.streams = min s.stx s.numTx) :
    ∃ Y : (Fin s.paths × Option (Fin s.sinus) → ℝ) → Sig ℂ,
      (∀ w, (s.withPhases w).propagate x = .ok (Y w) ∧ (Y w).streams = min s.srx s.numRx ∧
        (Y w).len = x.len + s.maxSteps) ∧
      ∀ r < min s.srx s.numRx,
        ∫ w, ∑ m ∈ range (x.len + s.maxSteps), (Complex.normSq ((Y w).val r m) : ℂ) ∂turns _ c =
          s.energyScale * ∑ i ∈ range x.len, (Complex.normSq (mixed s x r i) : ℂ) := by
  classical
  have hY := fun w => C75_propagate (s.withPhases w) x hx
  choose Y hy hys hyl hyv using hY
  refine ⟨Y, fun w => ⟨hy w, hys w, hyl w⟩, fun r hr => ?_⟩
  -- the received sample as a sum of phasors
  let W : Nat → Fin s.paths × Option (Fin s.sinus) → ℂ := fun m k =>
    if s.steps k.1 ≤ m ∧ m < s.steps k.1 + x.len then
      weight s k.1 (m - s.steps k.1) k.2 * mixed s x r (m - s.steps k.1) else 0
  have hval : ∀ w, ∀ m < x.len + s.maxSteps, (Y w).val r m =
      ∑ k, W m k * Complex.exp (Complex.I * (w k : ℂ)) := by
    intro w m hm
    rw [hyv w r (by rw [hys w]; exact hr) m (by rw [hyl w]; exact hm)]
    have h1 : (s.withPhases w).resp = s.resp := rfl
    have h2 : (s.withPhases w).steps = s.steps := rfl
    have h3 : (s.withPhases w).paths = s.paths := rfl
    rw [h1, h2, h3, Fintype.sum_prod_type]
    simp only [Finset.mul_sum]
    rw [Finset.sum_comm, Finset.sum_range]
    refine Finset.sum_congr rfl fun p _ => ?_
    dsimp only [W]
    by_cases h : s.steps p ≤ m ∧ m < s.steps p + x.len
    · simp only [if_pos h]
      rw [impulse_phases s w p]
      unfold mixed
      simp only [Finset.sum_mul, Finset.mul_sum]
      rw [Finset.sum_comm]
      refine Finset.sum_congr rfl fun o _ => Finset.sum_congr rfl fun t _ => ?_
      ring
    · simp [h]
  have hcorr : ∀ m < x.len + s.maxSteps, ∫ w, (Complex.normSq ((Y w).val r m) : ℂ) ∂turns _ c = ∑ k, W m k * star (W m k) := by
    intro m hm
    rw [← corr_phasors c (W m) (W m)]
    congr 1
    funext w
    rw [hval w m hm, mul_star_eq]
  have hint : ∀ m ∈ range (x.len + s.maxSteps), Integrable (fun w => (Complex.normSq ((Y w).val r m) : ℂ)) (turns _ c) := by
    intro m hm
    have e : (fun w => (Complex.normSq ((Y w).val r m) : ℂ)) = fun w => ∑ k, ∑ l,
        W m k * star (W m l) * Complex.exp (Complex.I * ((w k : ℂ) - (w l : ℂ))) := by
      funext w
      rw [hval w m (Finset.mem_range.mp hm), ← mul_star_eq, star_sum, Finset.sum_mul_sum]
      refine Finset.sum_congr rfl fun k _ => Finset.sum_congr rfl fun l _ => ?_
      have := exp_phase (w k) (w l)
      rw [star_mul']
      calc _ = W m k * star (W m l) * (Complex.exp (Complex.I * (w k : ℂ)) * star (Complex.exp (Complex.I * (w l : ℂ)))) := by ring
        _ = _ := by rw [this]; push_cast; rfl
    rw [e]
    exact integrable_finsetSum _ fun k _ => integrable_finsetSum _ fun l _ => (integrable_diff c k l).const_mul _
  rw [integral_finsetSum _ hint, Finset.sum_congr rfl fun m hm => hcorr m (Finset.mem_range.mp hm)]
  -- the sum over the phasors of one path
  have hpath : ∀ m, ∑ k, W m k * star (W m k) = ∑ p ∈ range s.paths,
      if s.steps p ≤ m ∧ m < s.steps p + x.len then
        ((s.gain * s.power p : ℝ) : ℂ) * (Complex.normSq (mixed s x r (m - s.steps p)) : ℂ) else 0 := by
    intro m
    rw [Fintype.sum_prod_type, Finset.sum_range]
    refine Finset.sum_congr rfl fun p _ => ?_
    dsimp only [W]
    by_cases h : s.steps p ≤ m ∧ m < s.steps p + x.len
    · simp only [if_pos h]
      have h1 : ∀ o, weight s p (m - s.steps p) o * mixed s x r (m - s.steps p) *
          star (weight s p (m - s.steps p) o * mixed s x r (m - s.steps p)) =
          weight s p (m - s.steps p) o * star (weight s p (m - s.steps p) o) *
            (mixed s x r (m - s.steps p) * star (mixed s x r (m - s.steps p))) := by
        intro o
        rw [star_mul']
        ring
      simp only [h1]
      rw [← Finset.sum_mul, weight_corr s p _ _ (mul_nonneg hg (hp p)), mul_star_eq]
      congr 1
      have h2 : (s.losGain p : ℂ) ^ 2 + s.sinus * (s.nlosGain p : ℂ) ^ 2 = 1 := by exact_mod_cast hu p p.2
      simp only [sub_self, zero_div, mul_zero, zero_mul, Complex.ofReal_zero, Complex.exp_zero, mul_one,
        Finset.sum_const, Finset.card_range, nsmul_eq_mul]
      rw [mul_comm ((s.nlosGain p : ℂ) ^ 2), h2, mul_one]
    · simp [h]
  simp only [hpath]
  rw [Finset.sum_comm]
  have hwin : ∀ p ∈ range s.paths, ∑ m ∈ range (x.len + s.maxSteps), (if s.steps p ≤ m ∧ m < s.steps p + x.len then
      ((s.gain * s.power p : ℝ) : ℂ) * (Complex.normSq (mixed s x r (m - s.steps p)) : ℂ) else 0) =
      ((s.gain * s.power p : ℝ) : ℂ) * ∑ i ∈ range x.len, (Complex.normSq (mixed s x r i) : ℂ) := by
    intro p hp'
    rw [window_sum (s.steps p) x.len s.maxSteps (steps_le s hb (Finset.mem_range.mp hp')) fun i =>
      ((s.gain * s.power p : ℝ) : ℂ) * (Complex.normSq (mixed s x r i) : ℂ), Finset.mul_sum]
  rw [Finset.sum_congr rfl hwin, ← Finset.sum_mul]
  congr 1
  unfold Sample.energyScale
  push_cast
  rw [Finset.mul_sum]

example : ∀ p < demo.paths, demo.losGain p ^ 2 + demo.sinus * demo.nlosGain p ^ 2 = 1 := by
  intro p _
  norm_num [demo]

/-- C75: a single transmitting antenna, no correlation model: at every receiving antenna the expected energy is
exactly the energy scale times the energy sent. -/
theorem C75_energy_siso (s : Sample) (u : Nat → Nat → ℝ) (nRx : Nat) (c : ℝ) (x : Sig ℂ) (hb : 0 ≤ s.bandwidth)
    (hg : 0 ≤ s.gain) (hp : ∀ p, 0 ≤ s.power p)
    (hu : ∀ p < s.paths, s.losGain p ^ 2 + s.sinus * s.nlosGain p ^ 2 = 1)
    (hr : spatialResponse u nRx 1 none = .ok (s.srx, s.stx, s.resp)) (ht : s.numTx = 1) (hx : x.streams = 1) :
    ∃ Y : (Fin s.paths × Option (Fin s.sinus) → ℝ) → Sig ℂ,
      (∀ w, (s.withPhases w).propagate x = .ok (Y w)) ∧
      ∀ r < min s.srx s.numRx,
        ∫ w, ∑ m ∈ range (Y w).len, (Complex.normSq ((Y w).val r m) : ℂ) ∂turns _ c =
          s.energyScale * ∑ i ∈ range x.len, (Complex.normSq (x.val 0 i) : ℂ) := by
  unfold spatialResponse at hr
  simp only [Except.ok.injEq, Prod.mk.injEq] at hr
  obtain ⟨_, h2, h3⟩ := hr
  obtain ⟨Y, hY, hE⟩ := C75_energy s c x hb hg hp hu (by omega)
  refine ⟨Y, fun w => (hY w).1, fun r hr => ?_⟩
  have hl : ∀ w, (Y w).len = x.len + s.maxSteps := fun w => (hY w).2.2
  simp only [hl]
  rw [hE r hr]
  congr 1
  refine Finset.sum_congr rfl fun i _ => ?_
  unfold mixed
  rw [hx, Finset.sum_range_one, Complex.normSq_mul, ← h3]
  have : Complex.normSq (Complex.exp (2 * Complex.I * Real.pi * u r 0)) = 1 := by
    rw [Complex.normSq_eq_norm_sq,
      show 2 * Complex.I * Real.pi * (u r 0 : ℂ) = ((2 * Real.pi * u r 0 : ℝ) : ℂ) * Complex.I by push_cast; ring,
      Complex.norm_exp_ofReal_mul_I, one_pow]
  rw [this, one_mul]

example : ∃ (s : Sample) (u : Nat → Nat → ℝ), spatialResponse u 2 1 none = .ok (s.srx, s.stx, s.resp) ∧ s.numTx = 1 :=
  ⟨{ demo with resp := fun _ _ => Complex.exp (2 * Complex.I * Real.pi * (0 : ℝ)) }, fun _ _ => 0,
    by simp [spatialResponse, demo], rfl⟩

/-! ## Doppler spectrum -/

theorem integral_eval {N : Nat} (c : ℝ) (n : Fin N) (f : ℝ → ℂ) (hf : Continuous f) :
    ∫ x : Fin N → ℝ, f (x n) ∂turns (Fin N) c = ∫ y, f y ∂turn c := by
  have h := measurePreserving_eval (fun _ : Fin N => turn c) n
  have h2 := integral_map (μ := Measure.pi fun _ : Fin N => turn c) (φ := Function.eval n)
    h.measurable.aemeasurable (f := f) (hf.aestronglyMeasurable)
  rw [h.map_eq] at h2
  exact h2.symm

/-- The sectors of the sinusoids cover the circle once. -/
theorem sectors (N : Nat) (hN : 0 < N) (F : ℝ → ℂ) (hF : Continuous F) (hper : Function.Periodic F (2 * Real.pi)) :
    ∑ n ∈ range N, ∫ y, F ((2 * Real.pi * (1 + n) + y) / N) ∂turn (-Real.pi) =
      (N : ℂ) * (((2 * Real.pi : ℝ)⁻¹ : ℝ) • ∫ y in (0 : ℝ)..2 * Real.pi, F y) := by
  have hN' : (N : ℝ) ≠ 0 := by exact_mod_cast hN.ne'
  have h1 : ∀ n : Nat, ∫ y, F ((2 * Real.pi * (1 + n) + y) / N) ∂turn (-Real.pi) =
      (2 * Real.pi)⁻¹ • ((N : ℝ) • ∫ y in ((2 * Real.pi * (1 + n) - Real.pi) / N)..((2 * Real.pi * (1 + ((n + 1 : Nat) : ℝ)) - Real.pi) / N), F y) := by
    intro n
    rw [integral_turn]
    congr 1
    have h2 : ∀ y : ℝ, F ((2 * Real.pi * (1 + n) + y) / N) = F (y / N + 2 * Real.pi * (1 + n) / N) := by
      intro y; congr 1; ring
    simp only [h2]
    rw [intervalIntegral.integral_comp_div_add F hN' (2 * Real.pi * (1 + n) / N)]
    congr 2
    · ring
    · push_cast; ring
  have hint : ∀ a b : ℝ, IntervalIntegrable F volume a b := fun a b => hF.intervalIntegrable a b
  rw [Finset.sum_congr rfl fun n _ => h1 n, ← Finset.smul_sum, ← Finset.smul_sum]
  have h3 := intervalIntegral.sum_integral_adjacent_intervals (f := F) (μ := volume)
    (a := fun n : Nat => (2 * Real.pi * (1 + (n : ℝ)) - Real.pi) / N) (n := N) fun k _ => hint _ _
  rw [h3]
  have h4 : (2 * Real.pi * (1 + ((N : Nat) : ℝ)) - Real.pi) / N =
      (2 * Real.pi * (1 + ((0 : Nat) : ℝ)) - Real.pi) / N + 2 * Real.pi := by
    field_simp; push_cast; ring
  rw [h4, hper.intervalIntegral_add_eq _ 0, zero_add, smul_comm, Complex.real_smul]
  push_cast
  rfl

/-- C75: the Doppler spectrum of the sinusoids. Over angles that are independent and uniformly distributed as well,
the autocorrelation of a path without line of sight is for every number of sinusoids the one of Clarke's model: the
mean of `exp (i ω τ cos φ)` over all directions `φ`. `A` is the correlation over the phases that `C75_wssus` gives,
with the angles `θ` of the path inserted. -/
theorem C75_clarke (s : Sample) (c : ℝ) (hg : 0 ≤ s.gain) (hp : ∀ p, 0 ≤ s.power p) (p : Fin s.paths) (i j : Nat)
    (hN : 0 < s.sinus) (hl : s.losGain p = 0) (hn : s.sinus * s.nlosGain p ^ 2 = 1) :
    ∃ A : (Fin s.sinus → ℝ) → ℂ,
      (∀ θ, ∀ s' : Sample, s' = { s with nlosAngle := fun _ n => if h : n < s.sinus then θ ⟨n, h⟩ else 0 } →
        ∃ (e1 : s'.paths = s.paths), A θ =
          ∫ x, (s'.withPhases x).impulse (Fin.cast e1.symm p) i * star ((s'.withPhases x).impulse (Fin.cast e1.symm p) j)
            ∂turns _ c) ∧
      ∫ θ, A θ ∂turns _ (-Real.pi) = ((s.gain * s.power p : ℝ) : ℂ) * (((2 * Real.pi : ℝ)⁻¹ : ℝ) •
        ∫ φ in (0 : ℝ)..2 * Real.pi, Complex.exp (Complex.I *
          ((s.nlosDoppler * (((i : ℝ) - j) / (s.bandwidth : ℝ)) * Real.cos φ : ℝ) : ℂ))) := by
  set F : ℝ → ℂ := fun φ => Complex.exp (Complex.I *
    ((s.nlosDoppler * (((i : ℝ) - j) / (s.bandwidth : ℝ)) * Real.cos φ : ℝ) : ℂ)) with hFdef
  have hF : Continuous F := by fun_prop
  have hper : Function.Periodic F (2 * Real.pi) := fun φ => by simp only [F, Real.cos_add_two_pi]
  refine ⟨fun θ => ((s.gain * s.power p : ℝ) : ℂ) * ((s.nlosGain p : ℂ) ^ 2 * ∑ n : Fin s.sinus,
    F ((2 * Real.pi * (1 + (n : Nat)) + θ n) / s.sinus)), ?_, ?_⟩
  · rintro θ s' rfl
    refine ⟨rfl, ?_⟩
    have h := (C75_wssus { s with nlosAngle := fun _ n => if h : n < s.sinus then θ ⟨n, h⟩ else 0 } c hg hp p p i j).2
    rw [if_pos rfl] at h
    refine Eq.trans ?_ h.symm
    dsimp only
    rw [hl, Finset.sum_range]
    simp only [Complex.ofReal_zero, ne_eq, OfNat.ofNat_ne_zero, not_false_eq_true, zero_pow, zero_mul, zero_add,
      Fin.is_lt, dite_true, Fin.eta]
    rfl
  · have hbound : ∀ n : Fin s.sinus, Integrable (fun θ : Fin s.sinus → ℝ =>
        F ((2 * Real.pi * (1 + (n : Nat)) + θ n) / s.sinus)) (turns _ (-Real.pi)) := by
      intro n
      refine Integrable.of_bound (C := 1) (Continuous.aestronglyMeasurable (by fun_prop)) (Filter.Eventually.of_forall fun θ => ?_)
      simp only [F]
      rw [mul_comm, Complex.norm_exp_ofReal_mul_I]
    rw [integral_const_mul, integral_const_mul, integral_finsetSum _ fun n _ => hbound n]
    congr 1
    have h1 : ∀ n : Fin s.sinus, ∫ θ : Fin s.sinus → ℝ, F ((2 * Real.pi * (1 + (n : Nat)) + θ n) / s.sinus) ∂turns _ (-Real.pi) =
        ∫ y, F ((2 * Real.pi * (1 + ((n : Nat) : ℝ)) + y) / s.sinus) ∂turn (-Real.pi) := fun n =>
      integral_eval (-Real.pi) n (fun y => F ((2 * Real.pi * (1 + (n : Nat)) + y) / s.sinus)) (by fun_prop)
    rw [Finset.sum_congr rfl fun n _ => h1 n]
    have h2 := sectors s.sinus hN F hF hper
    rw [Finset.sum_range] at h2
    rw [h2, ← mul_assoc]
    have h3 : (s.nlosGain p : ℂ) ^ 2 * (s.sinus : ℂ) = 1 := by
      rw [mul_comm]; exact_mod_cast hn
    rw [h3, one_mul]

/-- Four sinusoids of gain one half. -/
example : (0 : Nat) < 4 ∧ ((4 : Nat) : ℝ) * (1 / 2 : ℝ) ^ 2 = 1 := ⟨by norm_num, by norm_num⟩

/-! ## Spatial response -/

/-- The ten by ten variable when it is uniformly distributed: phases `y` in units of a turn. -/
noncomputable def drawn (y : Fin 10 × Fin 10 → ℝ) (r t : Nat) : ℝ :=
  if h : r < 10 ∧ t < 10 then y (⟨r, h.1⟩, ⟨t, h.2⟩) / (2 * Real.pi) else 0

theorem drawn_exp (y : Fin 10 × Fin 10 → ℝ) (r t : Fin 10) :
    Complex.exp (2 * Complex.I * Real.pi * (drawn y r t : ℂ)) = Complex.exp (Complex.I * (y (r, t) : ℂ)) := by
  unfold drawn
  rw [dif_pos ⟨r.2, t.2⟩]
  congr 1
  have : (Real.pi : ℂ) ≠ 0 := by exact_mod_cast Real.pi_ne_zero
  push_cast
  field_simp

/-- The sample with the spatial response of the variable `y`, without correlation model. -/
noncomputable abbrev Sample.withResponse (s : Sample) (y : Fin 10 × Fin 10 → ℝ) : Sample :=
  { s with resp := fun r t => Complex.exp (2 * Complex.I * Real.pi * (drawn y r t : ℂ)) }

theorem sum_ten (n : Nat) (hn : n ≤ 10) (f : Nat → ℂ) :
    ∑ i : Fin 10, (if (i : Nat) < n then f i else 0) = ∑ i ∈ range n, f i := by
  rw [← Finset.sum_range fun i => if i < n then f i else 0, ← Finset.sum_filter]
  congr 1
  ext i
  simp
  omega

/-- C75: antenna correlation. For a receive covariance `A` and a transmit covariance `B`, over independent uniformly
distributed phases, the correlation between two entries of the spatial response is the entry of `A Aᴴ` times the
entry of `B Bᴴ` (transposed). -/
theorem C75_covariance_partial (A B : Nat → Nat → ℂ) (m k : Nat) (hm : m ≤ 10) (hk : k ≤ 10) (c : ℝ) :
    ∃ G : (Fin 10 × Fin 10 → ℝ) → Nat → Nat → ℂ,
      (∀ y, spatialResponse (drawn y) m k (some ((m, A), (k, B))) = .ok (m, k, G y)) ∧
      ∀ r r' t t', ∫ y, G y r t * star (G y r' t') ∂turns _ c =
        (∑ i ∈ range m, A r i * star (A r' i)) * ∑ j ∈ range k, B j t * star (B j t') := by
  classical
  let G : (Fin 10 × Fin 10 → ℝ) → Nat → Nat → ℂ := fun y r t =>
    ∑ j ∈ range k, (∑ i ∈ range m, A r i * Complex.exp (2 * Complex.I * Real.pi * (drawn y i j : ℂ))) * B j t
  let W : Nat → Nat → Fin 10 × Fin 10 → ℂ := fun r t q =>
    if (q.1 : Nat) < m then (if (q.2 : Nat) < k then A r q.1 * B q.2 t else 0) else 0
  have hG : ∀ y r t, G y r t = ∑ q, W r t q * Complex.exp (Complex.I * (y q : ℂ)) := by
    intro y r t
    dsimp only [G, W]
    rw [Fintype.sum_prod_type]
    have h1 : ∀ i : Fin 10, ∑ j : Fin 10, (if (i : Nat) < m then (if (j : Nat) < k then A r i * B j t else 0) else 0) *
        Complex.exp (Complex.I * (y (i, j) : ℂ)) = if (i : Nat) < m then ∑ j ∈ range k, A r i * B j t *
          Complex.exp (2 * Complex.I * Real.pi * (drawn y i j : ℂ)) else 0 := by
      intro i
      by_cases hi : (i : Nat) < m
      · simp only [if_pos hi]
        rw [← sum_ten k hk]
        refine Finset.sum_congr rfl fun j _ => ?_
        rw [drawn_exp]
        split <;> simp
      · simp [hi]
    rw [Finset.sum_congr rfl fun i _ => h1 i, sum_ten m hm fun i => ∑ j ∈ range k, A r i * B j t *
          Complex.exp (2 * Complex.I * Real.pi * (drawn y i j : ℂ)), Finset.sum_comm]
    refine Finset.sum_congr rfl fun j _ => ?_
    rw [Finset.sum_mul]
    refine Finset.sum_congr rfl fun i _ => ?_
    ring
  refine ⟨G, fun y => ?_, fun r r' t t' => ?_⟩
  · unfold spatialResponse
    dsimp only
    rw [if_neg (by omega), if_neg (by omega), Nat.min_eq_right hm, Nat.min_eq_right hk]
  · simp only [hG]
    rw [corr_phasors, Fintype.sum_prod_type]
    dsimp only [W]
    have h1 : ∀ i : Fin 10, ∑ j : Fin 10, (if (i : Nat) < m then (if (j : Nat) < k then A r i * B j t else 0) else 0) *
        star (if (i : Nat) < m then (if (j : Nat) < k then A r' i * B j t' else 0) else 0) =
        if (i : Nat) < m then (A r i * star (A r' i)) * ∑ j ∈ range k, B j t * star (B j t') else 0 := by
      intro i
      by_cases hi : (i : Nat) < m
      · simp only [if_pos hi]
        rw [Finset.mul_sum, ← sum_ten k hk]
        refine Finset.sum_congr rfl fun j _ => ?_
        split
        · rw [star_mul']; ring
        · simp
      · simp [hi]
    rw [Finset.sum_congr rfl fun i _ => h1 i, sum_ten m hm fun i => (A r i * star (A r' i)) *
      ∑ j ∈ range k, B j t * star (B j t'), Finset.sum_mul]

/-- C75, false of the code: the configured covariance is not the covariance of the antennas, because the matrices and
not their square roots are applied. With a single transmitting antenna and a covariance of unit diagonal, every
receiving antenna correlated with another one receives more than unit power, although its configured variance is
one. -/
theorem C75_covariance_fails (A : Nat → Nat → ℂ) (m : Nat) (hm : m ≤ 10) (hA : ∀ r < m, A r r = 1) (r i : Nat)
    (hr : r < m) (hi : i < m) (hne : i ≠ r) (h : A r i ≠ 0) (c : ℝ) :
    ∃ (G : (Fin 10 × Fin 10 → ℝ) → Nat → Nat → ℂ) (v : ℝ),
      (∀ y, spatialResponse (drawn y) m 1 (some ((m, A), (1, fun _ _ => 1))) = .ok (m, 1, G y)) ∧
      ∫ y, G y r 0 * star (G y r 0) ∂turns _ c = (v : ℂ) ∧ 1 < v ∧ (v : ℂ) ≠ A r r := by
  obtain ⟨G, hG, hc⟩ := C75_covariance_partial A (fun _ _ => 1) m 1 hm (by norm_num) c
  have hlt : 1 < ∑ i ∈ range m, Complex.normSq (A r i) := by
    have h1 : ({r, i} : Finset Nat) ⊆ range m := by
      intro q hq
      simp only [Finset.mem_insert, Finset.mem_singleton] at hq
      rcases hq with rfl | rfl <;> simpa
    have h2 := Finset.sum_le_sum_of_subset_of_nonneg h1 fun q _ _ => Complex.normSq_nonneg (A r q)
    rw [Finset.sum_pair hne.symm, hA r hr, Complex.normSq_one] at h2
    have h3 : 0 < Complex.normSq (A r i) := Complex.normSq_pos.mpr h
    linarith
  refine ⟨G, ∑ i ∈ range m, Complex.normSq (A r i), hG, ?_, hlt, ?_⟩
  · rw [hc, Finset.sum_range_one, one_mul, star_one, mul_one]
    push_cast
    exact Finset.sum_congr rfl fun q _ => mul_star_eq _
  · rw [hA r hr]
    intro h'
    have : ∑ i ∈ range m, Complex.normSq (A r i) = 1 := by exact_mod_cast h'
    linarith

/-- The high correlation of 3GPP between two antennas. -/
example : ∃ A : Nat → Nat → ℂ, (∀ r < 2, A r r = 1) ∧ A 0 1 ≠ 0 :=
  ⟨fun r i => if r = i then 1 else 0.9, by simp, by norm_num⟩

/-- C75: several transmitting antennas, no correlation model. Over the phases of the paths and those of the spatial
response, the expected energy at every receiving antenna is the energy scale times the energy sent by all
antennas together. -/
theorem C75_energy_mimo (s : Sample) (c : ℝ) (x : Sig ℂ) (hb : 0 ≤ s.bandwidth) (hg : 0 ≤ s.gain)
    (hp : ∀ p, 0 ≤ s.power p) (hu : ∀ p < s.paths, s.losGain p ^ 2 + s.sinus * s.nlosGain p ^ 2 = 1)
    (hr : s.srx ≤ 10) (ht : s.stx ≤ 10) (hx : x.streams = min s.stx s.numTx) :
    ∃ Y : (Fin 10 × Fin 10 → ℝ) → (Fin s.paths × Option (Fin s.sinus) → ℝ) → Sig ℂ,
      (∀ y w, ((s.withResponse y).withPhases w).propagate x = .ok (Y y w)) ∧
      ∀ r < min s.srx s.numRx,
        ∫ y, ∫ w, ∑ m ∈ range (x.len + s.maxSteps), (Complex.normSq ((Y y w).val r m) : ℂ) ∂turns _ c ∂turns _ c =
          s.energyScale * ∑ i ∈ range x.len, ∑ t ∈ range x.streams, (Complex.normSq (x.val t i) : ℂ) := by
  classical
  have h := fun y : Fin 10 × Fin 10 → ℝ => C75_energy (s.withResponse y) c x hb hg hp hu hx
  choose Y hY hE using h
  refine ⟨Y, fun y w => (hY y w).1, fun r hr' => ?_⟩
  have h1 : ∀ y, ∫ w, ∑ m ∈ range (x.len + s.maxSteps), (Complex.normSq ((Y y w).val r m) : ℂ) ∂turns _ c =
      s.energyScale * ∑ i ∈ range x.len, (Complex.normSq (mixed (s.withResponse y) x r i) : ℂ) := fun y => hE y r hr'
  simp only [h1]
  have hr10 : r < 10 := by omega
  let W : Nat → Fin 10 × Fin 10 → ℂ := fun i q =>
    if q.1 = ⟨r, hr10⟩ then (if (q.2 : Nat) < x.streams then x.val q.2 i else 0) else 0
  have hW : ∀ y i, mixed (s.withResponse y) x r i =
      ∑ q, W i q * Complex.exp (Complex.I * (y q : ℂ)) := by
    intro y i
    rw [Fintype.sum_prod_type, Finset.sum_eq_single ⟨r, hr10⟩]
    · dsimp only [W, mixed]
      rw [← sum_ten x.streams (by omega)]
      refine Finset.sum_congr rfl fun t _ => ?_
      rw [if_pos rfl, ← drawn_exp]
      split
      · exact mul_comm _ _
      · simp
    · intro b _ hb'
      refine Finset.sum_eq_zero fun t _ => ?_
      dsimp only [W]
      rw [if_neg hb', zero_mul]
    · simp
  have hint : ∀ i, Integrable (fun y => (Complex.normSq (mixed (s.withResponse y) x r i) : ℂ)) (turns _ c) := by
    intro i
    have e : (fun y => (Complex.normSq (mixed (s.withResponse y) x r i) : ℂ)) = fun y => ∑ k, ∑ l,
        W i k * star (W i l) * Complex.exp (Complex.I * ((y k : ℂ) - (y l : ℂ))) := by
      funext y
      rw [hW y i, ← mul_star_eq, star_sum, Finset.sum_mul_sum]
      refine Finset.sum_congr rfl fun k _ => Finset.sum_congr rfl fun l _ => ?_
      have := exp_phase (y k) (y l)
      rw [star_mul']
      calc _ = W i k * star (W i l) * (Complex.exp (Complex.I * (y k : ℂ)) * star (Complex.exp (Complex.I * (y l : ℂ)))) := by ring
        _ = _ := by rw [this]; push_cast; rfl
    rw [e]
    exact integrable_finsetSum _ fun k _ => integrable_finsetSum _ fun l _ => (integrable_diff c k l).const_mul _
  rw [integral_const_mul, integral_finsetSum _ fun i _ => hint i]
  congr 1
  refine Finset.sum_congr rfl fun i _ => ?_
  have h2 := corr_phasors c (W i) (W i)
  rw [Fintype.sum_prod_type, Finset.sum_eq_single ⟨r, hr10⟩] at h2
  · have h3 : ∑ t : Fin 10, W i (⟨r, hr10⟩, t) * star (W i (⟨r, hr10⟩, t)) =
        ∑ t ∈ range x.streams, (Complex.normSq (x.val t i) : ℂ) := by
      rw [← sum_ten x.streams (by omega)]
      refine Finset.sum_congr rfl fun t _ => ?_
      dsimp only [W]
      rw [if_pos rfl]
      split
      · exact mul_star_eq _
      · simp
    rw [← h3, ← h2]
    congr 1
    funext y
    rw [hW y i, mul_star_eq]
  · intro b _ hb'
    refine Finset.sum_eq_zero fun t _ => ?_
    dsimp only [W]
    rw [if_neg hb', zero_mul]
  · simp

end Verif.Fading
