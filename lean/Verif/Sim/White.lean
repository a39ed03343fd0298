import Mathlib.Probability.Distributions.Gaussian.Real
import Mathlib.Probability.Independence.InfinitePi
import Mathlib.Probability.Independence.Integration
import Mathlib.Analysis.Complex.Basic
import Mathlib.Tactic.FieldSimp
import Mathlib.Tactic.Linarith
import Mathlib.Tactic.Ring

/-!
# Samples of additive white Gaussian noise

`hermespy/simulation/rf/noise/model.py`, lines 140-160.  Generators are numbered by their seeds, `z seed k ω` is the number
drawn `k`-th from the generator of a seed.  What is used of the numbers drawn by `standard_normal` is that they are centred,
of unit variance, and uncorrelated, for one generator and between generators of different seeds (`White`).
-/

open MeasureTheory ProbabilityTheory

namespace Verif.Noise

/-- Numbers drawn by `Generator.standard_normal`: centred, of unit variance, and uncorrelated. -/
structure White {Ω : Type} [MeasurableSpace Ω] (μ : Measure Ω) (z : ℕ → ℕ → Ω → ℝ) : Prop where
  memLp : ∀ s k, MemLp (z s k) 2 μ
  mean : ∀ s k, ∫ ω, z s k ω ∂μ = 0
  corr : ∀ s k s' k', ∫ ω, z s k ω * z s' k' ω ∂μ = if (s, k) = (s', k') then 1 else 0

/-- Independent standard Gaussian numbers are an instance. -/
theorem white_gaussian :
    White (Measure.infinitePi fun _ : ℕ × ℕ => gaussianReal 0 1) (fun s k ω => ω (s, k)) := by
  have hmp : ∀ i : ℕ × ℕ, MeasurePreserving (Function.eval i)
      (Measure.infinitePi fun _ : ℕ × ℕ => gaussianReal 0 1) (gaussianReal 0 1) := fun i =>
    measurePreserving_eval_infinitePi _ i
  have hm : ∀ i : ℕ × ℕ, MemLp (fun ω : ℕ × ℕ → ℝ => ω i) 2 (Measure.infinitePi fun _ : ℕ × ℕ => gaussianReal 0 1) := by
    intro i
    exact (memLp_id_gaussianReal' (μ := 0) (v := 1) 2 (by simp)).comp_measurePreserving (hmp i)
  have hi : ∀ (i : ℕ × ℕ) (f : ℝ → ℝ), Measurable f →
      ∫ ω : ℕ × ℕ → ℝ, f (ω i) ∂(Measure.infinitePi fun _ : ℕ × ℕ => gaussianReal 0 1) = ∫ x, f x ∂gaussianReal 0 1 := by
    intro i f hf
    have := integral_map (μ := Measure.infinitePi fun _ : ℕ × ℕ => gaussianReal 0 1) (φ := Function.eval i)
      (hmp i).measurable.aemeasurable (f := f) hf.aestronglyMeasurable
    rw [(hmp i).map_eq] at this
    exact this.symm
  have hmean : ∀ i : ℕ × ℕ, ∫ ω : ℕ × ℕ → ℝ, ω i ∂(Measure.infinitePi fun _ : ℕ × ℕ => gaussianReal 0 1) = 0 := by
    intro i
    rw [hi i (fun x => x) measurable_id]
    exact integral_id_gaussianReal
  refine ⟨fun s k => hm (s, k), fun s k => hmean (s, k), fun s k s' k' => ?_⟩
  split
  · next h =>
    rw [← h]
    rw [hi (s, k) (fun x => x * x) (by fun_prop)]
    have hv := variance_fun_id_gaussianReal (μ := 0) (v := 1)
    rw [variance_eq_integral (by fun_prop), integral_id_gaussianReal] at hv
    simpa [pow_two] using hv
  · next h =>
    have hind := (iIndepFun_infinitePi (Ω := fun _ : ℕ × ℕ => ℝ) (P := fun _ : ℕ × ℕ => gaussianReal 0 1)
      (X := fun _ x => x) (by fun_prop)).indepFun h
    rw [IndepFun.integral_fun_mul_eq_mul_integral hind (hm (s, k)).1 (hm (s', k')).1, hmean (s, k), zero_mul]

/-- Sample `t` of stream `a` of noise of unit power, for a signal of shape `(P, N)`, lines 151-153: `standard_normal(shape)`
is called for the real parts, then for the imaginary parts. -/
noncomputable def unit (z : ℕ → ℕ → ℝ) (seed P N a t : ℕ) : ℂ :=
  ((0.5 : ℝ) ^ (0.5 : ℝ) : ℝ) * (z seed (a * N + t) + Complex.I * z seed (P * N + (a * N + t)))

theorem half_pow : ((0.5 : ℝ) ^ (0.5 : ℝ)) * ((0.5 : ℝ) ^ (0.5 : ℝ)) = 1 / 2 := by
  rw [← Real.rpow_add (by norm_num)]
  norm_num

theorem place_lt {P N a t : ℕ} (ha : a < P) (ht : t < N) : a * N + t < P * N := by
  calc a * N + t < a * N + N := by omega
    _ = (a + 1) * N := by ring
    _ ≤ P * N := Nat.mul_le_mul_right _ ha

theorem place_inj {N a t a' t' : ℕ} (ht : t < N) (ht' : t' < N) (h : a * N + t = a' * N + t') : a = a' ∧ t = t' := by
  have hpos : 0 < N := by omega
  have h1 : (t + a * N) / N = a := by rw [Nat.add_mul_div_right _ _ hpos, Nat.div_eq_of_lt ht, zero_add]
  have h2 : (t' + a' * N) / N = a' := by rw [Nat.add_mul_div_right _ _ hpos, Nat.div_eq_of_lt ht', zero_add]
  have h3 : a = a' := by rw [← h1, ← h2, Nat.add_comm, h, Nat.add_comm]
  subst h3
  exact ⟨rfl, by omega⟩

variable {Ω : Type} [MeasurableSpace Ω] {μ : Measure Ω} {z : ℕ → ℕ → Ω → ℝ}

theorem unit_memLp (hz : White μ z) (s P N a t : ℕ) : MemLp (fun ω => unit (fun s k => z s k ω) s P N a t) 2 μ := by
  have h1 : MemLp (fun ω => (z s (a * N + t) ω : ℂ)) 2 μ := (hz.memLp s (a * N + t)).ofReal
  have h2 : MemLp (fun ω => (z s (P * N + (a * N + t)) ω : ℂ)) 2 μ := (hz.memLp s (P * N + (a * N + t))).ofReal
  exact (h1.add (h2.const_mul Complex.I)).const_mul _

theorem integral_ofReal_mul (f g : Ω → ℝ) :
    ∫ ω, ((f ω : ℂ) * (g ω : ℂ)) ∂μ = ((∫ ω, f ω * g ω ∂μ : ℝ) : ℂ) := by
  rw [← integral_complex_ofReal]
  simp

/-- Noise samples of unit power are centred, circular, of unit power, and uncorrelated. -/
theorem unit_corr [IsProbabilityMeasure μ] (hz : White μ z) (s s' P P' N N' a a' t t' : ℕ) (ha : a < P) (ht : t < N) (ha' : a' < P') (ht' : t' < N')
    (hs : s = s' → P = P' ∧ N = N') :
    ∫ ω, unit (fun s k => z s k ω) s P N a t ∂μ = 0 ∧
    ∫ ω, unit (fun s k => z s k ω) s P N a t * unit (fun s k => z s k ω) s' P' N' a' t' ∂μ = 0 ∧
    ∫ ω, unit (fun s k => z s k ω) s P N a t * star (unit (fun s k => z s k ω) s' P' N' a' t') ∂μ =
      if (s, a, t) = (s', a', t') then 1 else 0 := by
  have hI : ∀ s k s' k', Integrable (fun ω => (z s k ω : ℂ) * (z s' k' ω : ℂ)) μ := by
    intro s k s' k'
    have := ((hz.memLp s k).integrable_mul (hz.memLp s' k')).ofReal (𝕜 := ℂ)
    refine this.congr (Filter.Eventually.of_forall fun ω => ?_)
    simp
  have hc : ∀ s k s' k', ∫ ω, ((z s k ω : ℂ) * (z s' k' ω : ℂ)) ∂μ = if (s, k) = (s', k') then 1 else 0 := by
    intro s k s' k'
    rw [integral_ofReal_mul, hz.corr]
    split <;> simp
  have h1 := place_lt ha ht
  have h2 := place_lt ha' ht'
  have hcase : ∀ (k k' : ℕ) (p : Prop) [Decidable p], ((s, k) = (s', k') ↔ p) →
      ∫ ω, ((z s k ω : ℂ) * (z s' k' ω : ℂ)) ∂μ = if p then 1 else 0 := by
    intro k k' p _ h
    rw [hc]
    exact if_congr h rfl rfl
  set c : ℂ := (((0.5 : ℝ) ^ (0.5 : ℝ) : ℝ) : ℂ) with hcdef
  have hcc : c * c = 1 / 2 := by
    rw [hcdef, ← Complex.ofReal_mul, half_pow]
    norm_num
  have hq : (s, a * N + t) = (s', a' * N' + t') ↔ (s, a, t) = (s', a', t') := by
    constructor
    · intro h
      rw [Prod.mk.injEq] at h
      obtain ⟨rfl, rfl⟩ := hs h.1
      obtain ⟨h3, h4⟩ := place_inj ht ht' h.2
      rw [h.1, h3, h4]
    · intro h
      simp only [Prod.mk.injEq] at h
      obtain ⟨rfl, rfl⟩ := hs h.1
      rw [h.1, h.2.1, h.2.2]
  have hrr := hcase (a * N + t) (a' * N' + t') _ hq
  have hii := hcase (P * N + (a * N + t)) (P' * N' + (a' * N' + t')) ((s, a, t) = (s', a', t')) (by
    rw [← hq]
    simp only [Prod.mk.injEq]
    refine and_congr_right fun h => ?_
    obtain ⟨rfl, rfl⟩ := hs h
    omega)
  have hri := hcase (a * N + t) (P' * N' + (a' * N' + t')) False (by
    simp only [Prod.mk.injEq, iff_false, not_and]
    intro h
    obtain ⟨rfl, rfl⟩ := hs h
    omega)
  have hir := hcase (P * N + (a * N + t)) (a' * N' + t') False (by
    simp only [Prod.mk.injEq, iff_false, not_and]
    intro h
    obtain ⟨rfl, rfl⟩ := hs h
    omega)
  have e0 : ∀ k, ∫ ω, (z s k ω : ℂ) ∂μ = 0 := fun k => by
    rw [integral_complex_ofReal, hz.mean]; simp
  refine ⟨?_, ?_, ?_⟩
  · unfold unit
    have i1 : Integrable (fun ω => (z s (a * N + t) ω : ℂ)) μ := ((hz.memLp _ _).integrable (by norm_num)).ofReal
    have i2 : Integrable (fun ω => Complex.I * (z s (P * N + (a * N + t)) ω : ℂ)) μ :=
      ((hz.memLp _ _).integrable (by norm_num)).ofReal.const_mul _
    rw [integral_const_mul, integral_add i1 i2, integral_const_mul, e0, e0]
    simp
  · have : ∀ ω, unit (fun s k => z s k ω) s P N a t * unit (fun s k => z s k ω) s' P' N' a' t' =
        c * c * (((z s (a * N + t) ω : ℂ) * z s' (a' * N' + t') ω - (z s (P * N + (a * N + t)) ω : ℂ) * z s' (P' * N' + (a' * N' + t')) ω) +
          Complex.I * ((z s (a * N + t) ω : ℂ) * z s' (P' * N' + (a' * N' + t')) ω + (z s (P * N + (a * N + t)) ω : ℂ) * z s' (a' * N' + t') ω)) := by
      intro ω
      unfold unit
      rw [← hcdef]
      linear_combination (c * c * (z s (P * N + (a * N + t)) ω : ℂ) * z s' (P' * N' + (a' * N' + t')) ω) * Complex.I_mul_I
    simp_rw [this]
    have i1 := hI s (a * N + t) s' (a' * N' + t')
    have i2 := hI s (P * N + (a * N + t)) s' (P' * N' + (a' * N' + t'))
    have i3 := hI s (a * N + t) s' (P' * N' + (a' * N' + t'))
    have i4 := hI s (P * N + (a * N + t)) s' (a' * N' + t')
    rw [integral_const_mul]
    refine mul_eq_zero_of_right _ ?_
    refine (integral_add (i1.sub i2) ((i3.add i4).const_mul Complex.I)).trans ?_
    rw [integral_const_mul]
    have j1 := integral_sub i1 i2
    have j2 := integral_add i3 i4
    simp only [Pi.sub_apply, Pi.add_apply] at *
    rw [j1, j2, hrr, hii, hri, hir]
    simp
  · have : ∀ ω, unit (fun s k => z s k ω) s P N a t * star (unit (fun s k => z s k ω) s' P' N' a' t') =
        c * c * (((z s (a * N + t) ω : ℂ) * z s' (a' * N' + t') ω + (z s (P * N + (a * N + t)) ω : ℂ) * z s' (P' * N' + (a' * N' + t')) ω) +
          Complex.I * ((z s (P * N + (a * N + t)) ω : ℂ) * z s' (a' * N' + t') ω - (z s (a * N + t) ω : ℂ) * z s' (P' * N' + (a' * N' + t')) ω)) := by
      intro ω
      unfold unit
      rw [← hcdef]
      have hsc : star c = c := by rw [hcdef]; exact Complex.conj_ofReal _
      have hsI : star Complex.I = -Complex.I := Complex.conj_I
      have hsr : ∀ x : ℝ, star (x : ℂ) = x := fun x => Complex.conj_ofReal x
      rw [star_mul', star_add, star_mul', hsc, hsI, hsr, hsr]
      linear_combination (-(c * c * (z s (P * N + (a * N + t)) ω : ℂ) * z s' (P' * N' + (a' * N' + t')) ω)) * Complex.I_mul_I
    simp_rw [this]
    have i1 := hI s (a * N + t) s' (a' * N' + t')
    have i2 := hI s (P * N + (a * N + t)) s' (P' * N' + (a' * N' + t'))
    have i3 := hI s (a * N + t) s' (P' * N' + (a' * N' + t'))
    have i4 := hI s (P * N + (a * N + t)) s' (a' * N' + t')
    rw [integral_const_mul, hcc]
    have j0 := integral_add (i1.add i2) ((i4.sub i3).const_mul Complex.I)
    have j1 := integral_add i1 i2
    have j2 := integral_sub i4 i3
    rw [integral_const_mul] at j0
    simp only [Pi.sub_apply, Pi.add_apply] at *
    rw [j0, j1, j2, hrr, hii, hri, hir]
    split <;> norm_num

/-- The mean energy of a combination of uncorrelated numbers. -/
theorem energy_comb {ι : Type} [DecidableEq ι] (S : Finset ι) (u : ι → Ω → ℂ) (hu : ∀ i ∈ S, MemLp (u i) 2 μ)
    (ho : ∀ i ∈ S, ∀ j ∈ S, ∫ ω, u i ω * star (u j ω) ∂μ = if i = j then 1 else 0) (h : ι → ℂ) :
    ∫ ω, ‖∑ i ∈ S, h i * u i ω‖ ^ 2 ∂μ = ∑ i ∈ S, ‖h i‖ ^ 2 := by
  have hI : ∀ i ∈ S, ∀ j ∈ S, Integrable (fun ω => u i ω * star (u j ω)) μ := fun i hi j hj =>
    (hu i hi).integrable_mul (hu j hj).star
  have hexp : ∀ ω, ((‖∑ i ∈ S, h i * u i ω‖ ^ 2 : ℝ) : ℂ) = ∑ i ∈ S, ∑ j ∈ S, h i * star (h j) * (u i ω * star (u j ω)) := by
    intro ω
    rw [← Complex.normSq_eq_norm_sq, ← Complex.mul_conj, map_sum, Finset.sum_mul_sum]
    refine Finset.sum_congr rfl fun i _ => Finset.sum_congr rfl fun j _ => ?_
    rw [map_mul]
    show _ = h i * (starRingEnd ℂ) (h j) * (u i ω * (starRingEnd ℂ) (u j ω))
    ring
  have : ((∫ ω, ‖∑ i ∈ S, h i * u i ω‖ ^ 2 ∂μ : ℝ) : ℂ) = ((∑ i ∈ S, ‖h i‖ ^ 2 : ℝ) : ℂ) := by
    rw [← integral_complex_ofReal]
    simp_rw [hexp]
    rw [integral_finsetSum _ fun i hi => integrable_finsetSum _ fun j hj => (hI i hi j hj).const_mul _]
    rw [Complex.ofReal_sum]
    refine Finset.sum_congr rfl fun i hi => ?_
    rw [integral_finsetSum _ fun j hj => (hI i hi j hj).const_mul _]
    rw [Finset.sum_eq_single_of_mem i hi]
    · rw [integral_const_mul, ho i hi i hi, if_pos rfl, mul_one, ← Complex.normSq_eq_norm_sq, ← Complex.mul_conj]
      rfl
    · intro j hj hne
      rw [integral_const_mul, ho i hi j hj, if_neg (Ne.symm hne), mul_zero]
  exact_mod_cast this

end Verif.Noise
