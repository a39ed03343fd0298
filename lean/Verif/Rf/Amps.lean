import Verif.Np
import Mathlib.Analysis.SpecialFunctions.Complex.Arg
import Mathlib.Analysis.SpecialFunctions.Pow.Real
import Mathlib.Tactic.FieldSimp
import Mathlib.Tactic.Linarith
import Mathlib.Tactic.Positivity

/-!
# Power amplifiers

`hermespy/simulation/rf/blocks/amps.py`. The models are memoryless except the polynomial ones; samples are
exact complex numbers. Noise is not part of `_propagate`.
-/

namespace Verif.Rf.Amps

/-- The setters of `gain`, `saturation_amplitude`, `amplitude_alpha` and `amplitude_beta`.
`hermespy/simulation/rf/blocks/amps.py` 86-93, 295-304, 490-497, 511-518. -/
noncomputable def setNonnegative (value : ℝ) : Except PyErr ℝ :=
  if value < 0 then .error .value else .ok value

/-- The setter of `smoothness_factor`. `hermespy/simulation/rf/blocks/amps.py` 379-386. -/
noncomputable def setSmoothness (value : ℝ) : Except PyErr ℝ :=
  if value ≤ 0 then .error .value else .ok value

/-- `ClippingPowerAmplifier.model`. `hermespy/simulation/rf/blocks/amps.py` 270-279. -/
noncomputable def clipping (saturation : ℝ) (z : ℂ) : ℂ :=
  if saturation < ‖z‖ then saturation * Complex.exp (Complex.I * z.arg) else z

/-- `RappPowerAmplifier.model`. `hermespy/simulation/rf/blocks/amps.py` 388-393. -/
noncomputable def rapp (p : ℝ) (z : ℂ) : ℂ :=
  z * (((1 + ‖z‖ ^ (2 * p)) ^ (-1 / (2 * p)) : ℝ) : ℂ)

/-- `SalehPowerAmplifier.model`. `hermespy/simulation/rf/blocks/amps.py` 520-526. -/
noncomputable def saleh (alpha beta phaseAlpha phaseBeta : ℝ) (z : ℂ) : ℂ :=
  z * ((alpha / (1 + beta * ‖z‖ ^ 2) : ℝ) : ℂ) *
    Complex.exp (Complex.I * ((phaseAlpha * ‖z‖ ^ 2 / (1 + phaseBeta * ‖z‖ ^ 2) : ℝ) : ℂ))

/-- Linear interpolation between a sample point and the following ones, the inner part of `np.interp`, called at
`hermespy/simulation/rf/blocks/amps.py` 623-624. -/
noncomputable def interpFrom (x : ℝ) : ℝ × ℝ → List (ℝ × ℝ) → ℝ
  | p, [] => p.2
  | p, q :: qs =>
    if x < q.1 then (q.2 - p.2) / (q.1 - p.1) * (x - p.1) + p.2 else interpFrom x q qs

/-- `np.interp`: vectors of different lengths and empty vectors are refused, values outside of the sample points
are those of the first and last point. Called at `hermespy/simulation/rf/blocks/amps.py` 623-624. -/
noncomputable def interp (x : ℝ) (xp fp : List ℝ) : Except PyErr ℝ :=
  if xp.length ≠ fp.length then .error .value
  else match xp.zip fp with
    | [] => .error .value
    | p :: ps => .ok (if x < p.1 then p.2 else interpFrom x p ps)

/-- A customized amplifier. `hermespy/simulation/rf/blocks/amps.py` 612-615. -/
structure Custom where
  input : List ℝ
  gains : List ℝ
  phases : List ℝ

/-- `CustomPowerAmplifier.__init__`, with its chained comparison of lengths.
`hermespy/simulation/rf/blocks/amps.py` 598-618. Vectors only: the checks of the
number of dimensions (598-605) are not modelled. -/
noncomputable def Custom.create (input gains phases : List ℝ) : Except PyErr Custom :=
  if input.length ≠ gains.length ∧ gains.length ≠ phases.length then .error .value
  else .ok ⟨input, gains, phases⟩

/-- `CustomPowerAmplifier.model`. `hermespy/simulation/rf/blocks/amps.py` 620-626. -/
noncomputable def Custom.model (c : Custom) (z : ℂ) : Except PyErr ℂ :=
  match interp ‖z‖ c.input c.gains with
  | .error e => .error e
  | .ok gain =>
    match interp ‖z‖ c.input c.phases with
    | .error e => .error e
    | .ok shift => .ok (z * gain * Complex.exp (Complex.I * shift))

/-- `PowerAmplifier._propagate`: amplification by the gain, then the model.
`hermespy/simulation/rf/blocks/amps.py` 115-123. -/
noncomputable def propagate {β : Type} (gain : ℝ) (model : ℂ → β) (z : ℂ) : β := model (z * gain)

/-- A numpy array: its shape and its elements in row-major order
(the argument of `hermespy/simulation/rf/blocks/amps.py` 731). -/
structure NdArray (α : Type) where
  shape : List Nat
  data : List α

/-- `sliding_window_view(x, window)` for an integer window and without axis: only vectors are accepted, and
windows no longer than the vector. Called at `hermespy/simulation/rf/blocks/amps.py` 734-736. -/
def slidingWindows {α : Type} (x : NdArray α) (window : Nat) : Except PyErr (List (List α)) :=
  match x.shape with
  | [n] => if n < window then .error .value
    else .ok ((List.range (n - window + 1)).map fun i => (x.data.drop i).take window)
  | _ => .error .value

/-- `RFSignal.FromNDArray`: arrays that do not have two dimensions are refused.
`hermespy/simulation/rf/signal.py` 186-188; what the accepted ones become (190-213) is not modelled. -/
def fromNdArray {α : Type} (x : NdArray α) : Except PyErr (NdArray α) :=
  if x.shape.length ≠ 2 then .error .value else .ok x

/-- `MemoryPolynomialPowerAmplifier.model`: windows of the signal, their products with the coefficients
(`features` stands for lines 737-743), and the conversion of the resulting vector to a signal.
`hermespy/simulation/rf/blocks/amps.py` 730-746. -/
def memoryPolynomial {α : Type} (memoryLen : Nat) (features : List (List α) → List α) (x : NdArray α) :
    Except PyErr (NdArray α) :=
  match slidingWindows x memoryLen with
  | .error e => .error e
  | .ok windows =>
    let out := features windows
    fromNdArray ⟨[out.length], out⟩

/-! ## C64 -/

/-- **C64, clipping.** The output has the phase of the amplified input and the smaller of its amplitude and
the saturation amplitude; a second pass changes nothing. -/
theorem C64_clipping (gain saturation : ℝ) (hg : 0 ≤ gain) (hs : 0 ≤ saturation) (z : ℂ) :
    ‖propagate gain (clipping saturation) z‖ = min (gain * ‖z‖) saturation ∧
    (∃ c : ℝ, 0 ≤ c ∧ propagate gain (clipping saturation) z = c * z) ∧
    clipping saturation (propagate gain (clipping saturation) z) =
      propagate gain (clipping saturation) z := by
  have hn : ‖z * (gain : ℂ)‖ = gain * ‖z‖ := by
    rw [norm_mul, Complex.norm_real, Real.norm_of_nonneg hg, mul_comm]
  have h1 : ‖propagate gain (clipping saturation) z‖ = min (gain * ‖z‖) saturation := by
    unfold propagate clipping
    split_ifs with h
    · rw [norm_mul, Complex.norm_real, Real.norm_of_nonneg hs, mul_comm Complex.I,
        Complex.norm_exp_ofReal_mul_I, mul_one]
      rw [hn] at h
      exact (min_eq_right h.le).symm
    · push Not at h
      rw [hn] at h ⊢
      exact (min_eq_left h).symm
  refine ⟨h1, ?_, ?_⟩
  · unfold propagate clipping
    split_ifs with h
    · have hpos : 0 < ‖z * (gain : ℂ)‖ := lt_of_le_of_lt hs h
      refine ⟨saturation / ‖z * (gain : ℂ)‖ * gain, by positivity, ?_⟩
      have hp := Complex.norm_mul_exp_arg_mul_I (z * (gain : ℂ))
      rw [mul_comm Complex.I]
      have hne : ((‖z * (gain : ℂ)‖ : ℝ) : ℂ) ≠ 0 := by exact_mod_cast hpos.ne'
      push_cast
      calc (saturation : ℂ) * Complex.exp (((z * (gain : ℂ)).arg : ℂ) * Complex.I)
          = saturation / (‖z * (gain : ℂ)‖ : ℂ) *
            ((‖z * (gain : ℂ)‖ : ℂ) * Complex.exp (((z * (gain : ℂ)).arg : ℂ) * Complex.I)) := by
            field_simp
        _ = saturation / (‖z * (gain : ℂ)‖ : ℂ) * (z * gain) := by rw [hp]
        _ = _ := by ring
    · exact ⟨gain, hg, mul_comm _ _⟩
  · have : ¬ saturation < ‖propagate gain (clipping saturation) z‖ := by
      rw [h1]
      exact not_lt.mpr (min_le_right _ _)
    conv_lhs => rw [clipping]
    rw [if_neg this]

/-- The amplitude characteristic of Rapp's model (`hermespy/simulation/rf/blocks/amps.py` 388-393), used in proofs only. -/
noncomputable def rappAmplitude (p a : ℝ) : ℝ := a * (1 + a ^ (2 * p)) ^ (-1 / (2 * p))

theorem rappAmplitude_pow (p : ℝ) (hp : 0 < p) (a : ℝ) (ha : 0 ≤ a) :
    rappAmplitude p a ^ (2 * p) = a ^ (2 * p) / (1 + a ^ (2 * p)) := by
  have h2p : (2 * p) ≠ 0 := by positivity
  have hpos : 0 < 1 + a ^ (2 * p) := by positivity
  unfold rappAmplitude
  rw [Real.mul_rpow ha (by positivity), ← Real.rpow_mul hpos.le, div_mul_cancel₀ _ h2p, Real.rpow_neg_one,
    div_eq_mul_inv]

/-- **C64, Rapp.** The output has the phase of the amplified input; its amplitude is strictly increasing with
the amplitude of the input, below both the amplified amplitude and the saturation amplitude one, and loses
less than the factor `2 ^ (1 / 2p)` as long as the amplified amplitude is below saturation. -/
theorem C64_rapp (gain p : ℝ) (hg : 0 < gain) (hp : 0 < p) :
    (∀ z, ∃ c : ℝ, 0 < c ∧ propagate gain (rapp p) z = c * z) ∧
    (∀ z, ‖propagate gain (rapp p) z‖ < 1 ∧ ‖propagate gain (rapp p) z‖ ≤ gain * ‖z‖) ∧
    (∀ z w, ‖z‖ < ‖w‖ → ‖propagate gain (rapp p) z‖ < ‖propagate gain (rapp p) w‖) ∧
    (∀ z, gain * ‖z‖ ≤ 1 → gain * ‖z‖ ≤ 2 ^ (1 / (2 * p)) * ‖propagate gain (rapp p) z‖) := by
  have h2p : 0 < 2 * p := by positivity
  have hn : ∀ z : ℂ, ‖z * (gain : ℂ)‖ = gain * ‖z‖ := by
    intro z
    rw [norm_mul, Complex.norm_real, Real.norm_of_nonneg hg.le, mul_comm]
  have hnorm : ∀ z : ℂ, ‖propagate gain (rapp p) z‖ = rappAmplitude p (gain * ‖z‖) := by
    intro z
    unfold propagate rapp rappAmplitude
    rw [norm_mul, Complex.norm_real, hn, Real.norm_of_nonneg (by positivity)]
  have hnn : ∀ a : ℝ, 0 ≤ a → 0 ≤ rappAmplitude p a := by
    intro a ha; unfold rappAmplitude; positivity
  refine ⟨?_, ?_, ?_, ?_⟩
  · intro z
    refine ⟨gain * (1 + ‖z * (gain : ℂ)‖ ^ (2 * p)) ^ (-1 / (2 * p)), by positivity, ?_⟩
    unfold propagate rapp
    push_cast
    ring
  · intro z
    rw [hnorm]
    have ha : 0 ≤ gain * ‖z‖ := by positivity
    have hq : 0 ≤ (gain * ‖z‖) ^ (2 * p) := by positivity
    constructor
    · have h1 : rappAmplitude p (gain * ‖z‖) ^ (2 * p) < 1 ^ (2 * p) := by
        rw [rappAmplitude_pow p hp _ ha, Real.one_rpow, div_lt_one (by positivity)]
        linarith
      exact (Real.rpow_lt_rpow_iff (hnn _ ha) zero_le_one h2p).mp h1
    · have h1 : rappAmplitude p (gain * ‖z‖) ^ (2 * p) ≤ (gain * ‖z‖) ^ (2 * p) := by
        rw [rappAmplitude_pow p hp _ ha]
        apply div_le_self hq
        linarith
      exact (Real.rpow_le_rpow_iff (hnn _ ha) ha h2p).mp h1
  · intro z w h
    rw [hnorm, hnorm]
    have ha : 0 ≤ gain * ‖z‖ := by positivity
    have hb : 0 ≤ gain * ‖w‖ := by positivity
    have hab : gain * ‖z‖ < gain * ‖w‖ := mul_lt_mul_of_pos_left h hg
    have hpow : (gain * ‖z‖) ^ (2 * p) < (gain * ‖w‖) ^ (2 * p) :=
      (Real.rpow_lt_rpow_iff ha hb h2p).mpr hab
    have hq : 0 ≤ (gain * ‖z‖) ^ (2 * p) := by positivity
    apply (Real.rpow_lt_rpow_iff (hnn _ ha) (hnn _ hb) h2p).mp
    rw [rappAmplitude_pow p hp _ ha, rappAmplitude_pow p hp _ hb, div_lt_div_iff₀ (by positivity) (by positivity)]
    nlinarith
  · intro z h
    rw [hnorm]
    have ha : 0 ≤ gain * ‖z‖ := by positivity
    have hq : (gain * ‖z‖) ^ (2 * p) ≤ 1 := Real.rpow_le_one ha h h2p.le
    have hq0 : 0 ≤ (gain * ‖z‖) ^ (2 * p) := by positivity
    apply (Real.rpow_le_rpow_iff ha (mul_nonneg (by positivity) (hnn _ ha)) h2p).mp
    rw [Real.mul_rpow (by positivity) (hnn _ ha), rappAmplitude_pow p hp _ ha,
      ← Real.rpow_mul (by norm_num), one_div_mul_cancel h2p.ne', Real.rpow_one, mul_div_assoc',
      le_div_iff₀ (by positivity)]
    nlinarith

/-- **C64, Saleh.** The amplitude of the output is `alpha a / (1 + beta a²)` for the amplified amplitude `a`; it
never exceeds `alpha / (2 √beta)`, which is reached at `a = 1 / √beta`; it increases up to there and
decreases beyond. The phase of a non-zero sample is advanced by the phase characteristic. -/
theorem C64_saleh (gain alpha beta phaseAlpha phaseBeta : ℝ) (hg : 0 < gain) (ha : 0 < alpha)
    (hb : 0 < beta) :
    let out := fun z => propagate gain (saleh alpha beta phaseAlpha phaseBeta) z
    (∀ z, ‖out z‖ = alpha * (gain * ‖z‖) / (1 + beta * (gain * ‖z‖) ^ 2)) ∧
    (∀ z, ‖out z‖ ≤ alpha / (2 * Real.sqrt beta)) ∧
    (∀ z, gain * ‖z‖ = 1 / Real.sqrt beta → ‖out z‖ = alpha / (2 * Real.sqrt beta)) ∧
    (∀ z w, ‖z‖ < ‖w‖ → gain * ‖w‖ ≤ 1 / Real.sqrt beta → ‖out z‖ < ‖out w‖) ∧
    (∀ z w, ‖z‖ < ‖w‖ → 1 / Real.sqrt beta ≤ gain * ‖z‖ → ‖out w‖ < ‖out z‖) ∧
    (∀ z, ∃ c : ℝ, 0 < c ∧ out z = c * z * Complex.exp (Complex.I *
      ((phaseAlpha * (gain * ‖z‖) ^ 2 / (1 + phaseBeta * (gain * ‖z‖) ^ 2) : ℝ) : ℂ))) := by
  intro out
  have hn : ∀ z : ℂ, ‖z * (gain : ℂ)‖ = gain * ‖z‖ := by
    intro z
    rw [norm_mul, Complex.norm_real, Real.norm_of_nonneg hg.le, mul_comm]
  have hnorm : ∀ z, ‖out z‖ = alpha * (gain * ‖z‖) / (1 + beta * (gain * ‖z‖) ^ 2) := by
    intro z
    show ‖propagate gain (saleh alpha beta phaseAlpha phaseBeta) z‖ = _
    unfold propagate saleh
    rw [norm_mul, norm_mul, Complex.norm_real, hn, Real.norm_of_nonneg (by positivity), mul_comm Complex.I,
      Complex.norm_exp_ofReal_mul_I, mul_one]
    ring
  set r := Real.sqrt beta with hr
  have hr0 : 0 < r := Real.sqrt_pos.mpr hb
  have hr2 : beta = r ^ 2 := (Real.sq_sqrt hb.le).symm
  have key : ∀ a b : ℝ, 0 ≤ a → 0 ≤ b → a < b → (beta * a * b < 1 →
      alpha * a / (1 + beta * a ^ 2) < alpha * b / (1 + beta * b ^ 2)) ∧ (1 < beta * a * b →
      alpha * b / (1 + beta * b ^ 2) < alpha * a / (1 + beta * a ^ 2)) := by
    intro a b ha0 hb0 hab
    constructor
    · intro h
      rw [div_lt_div_iff₀ (by positivity) (by positivity)]
      have : 0 < alpha * (b - a) * (1 - beta * a * b) := by
        apply mul_pos (mul_pos ha (by linarith)) (by linarith)
      nlinarith
    · intro h
      rw [div_lt_div_iff₀ (by positivity) (by positivity)]
      have : 0 < alpha * (b - a) * (beta * a * b - 1) := by
        apply mul_pos (mul_pos ha (by linarith)) (by linarith)
      nlinarith
  refine ⟨hnorm, ?_, ?_, ?_, ?_, ?_⟩
  · intro z
    rw [hnorm, div_le_div_iff₀ (by positivity) (by positivity), hr2]
    have := mul_nonneg ha.le (sq_nonneg (r * (gain * ‖z‖) - 1))
    nlinarith
  · intro z h
    rw [hnorm, h, hr2]
    field_simp
    norm_num
  · intro z w h hw
    rw [hnorm, hnorm]
    apply (key _ _ (by positivity) (by positivity) (mul_lt_mul_of_pos_left h hg)).1
    have hab := mul_lt_mul_of_pos_left h hg
    rw [le_div_iff₀ hr0] at hw
    have h0 : 0 ≤ gain * ‖z‖ := by positivity
    have hzr : gain * ‖z‖ * r < 1 := by nlinarith
    have hwr : 0 < gain * ‖w‖ * r := by
      apply mul_pos _ hr0
      linarith
    calc beta * (gain * ‖z‖) * (gain * ‖w‖) = (gain * ‖z‖ * r) * (gain * ‖w‖ * r) := by rw [hr2]; ring
      _ < 1 * (gain * ‖w‖ * r) := mul_lt_mul_of_pos_right hzr hwr
      _ ≤ 1 := by linarith
  · intro z w h hz
    rw [hnorm, hnorm]
    apply (key _ _ (by positivity) (by positivity) (mul_lt_mul_of_pos_left h hg)).2
    have hab := mul_lt_mul_of_pos_left h hg
    rw [div_le_iff₀ hr0] at hz
    have hwr : 1 < gain * ‖w‖ * r := by nlinarith
    calc 1 < gain * ‖w‖ * r := hwr
      _ ≤ (gain * ‖z‖ * r) * (gain * ‖w‖ * r) := by nlinarith
      _ = beta * (gain * ‖z‖) * (gain * ‖w‖) := by rw [hr2]; ring
  · intro z
    refine ⟨gain * (alpha / (1 + beta * (gain * ‖z‖) ^ 2)), by positivity, ?_⟩
    show propagate gain (saleh alpha beta phaseAlpha phaseBeta) z = _
    unfold propagate saleh
    rw [hn]
    push_cast
    ring

theorem interpFrom_mem (lo hi x : ℝ) (p : ℝ × ℝ) (ps : List (ℝ × ℝ))
    (hs : (p :: ps).Pairwise fun a b => a.1 < b.1) (hx : p.1 ≤ x)
    (hr : ∀ q ∈ p :: ps, lo ≤ q.2 ∧ q.2 ≤ hi) : lo ≤ interpFrom x p ps ∧ interpFrom x p ps ≤ hi := by
  induction ps generalizing p with
  | nil => exact hr p (by simp)
  | cons q qs ih =>
    unfold interpFrom
    have hpq : p.1 < q.1 := (List.pairwise_cons.mp hs).1 q (by simp)
    split_ifs with h
    · obtain ⟨p1, p2⟩ := hr p (by simp)
      obtain ⟨q1, q2⟩ := hr q (by simp)
      have hd : 0 < q.1 - p.1 := by linarith
      have ht0 : 0 ≤ (x - p.1) / (q.1 - p.1) := div_nonneg (by linarith) hd.le
      have ht1 : (x - p.1) / (q.1 - p.1) ≤ 1 := by rw [div_le_one hd]; linarith
      have he : (q.2 - p.2) / (q.1 - p.1) * (x - p.1) + p.2 =
          p.2 + (q.2 - p.2) * ((x - p.1) / (q.1 - p.1)) := by field_simp; ring
      rw [he]
      constructor <;> nlinarith
    · push Not at h
      exact ih q (List.pairwise_cons.mp hs).2 h fun q' hq' => hr q' (by simp [List.mem_cons.mp hq'])

theorem interpFrom_at (x : ℝ) (p : ℝ × ℝ) (ps : List (ℝ × ℝ))
    (hs : (p :: ps).Pairwise fun a b => a.1 < b.1) (q : ℝ × ℝ) (hq : q ∈ p :: ps) (hx : x = q.1) :
    interpFrom x p ps = q.2 := by
  induction ps generalizing p with
  | nil => simp at hq; simp [interpFrom, hq]
  | cons r rs ih =>
    unfold interpFrom
    have hpr : p.1 < r.1 := (List.pairwise_cons.mp hs).1 r (by simp)
    rcases List.mem_cons.mp hq with rfl | hq'
    · rw [if_pos (by rw [hx]; exact hpr), hx]
      simp
    · have : ¬ x < r.1 := by
        rw [hx, not_lt]
        rcases List.mem_cons.mp hq' with rfl | h'
        · exact le_refl _
        · exact ((List.pairwise_cons.mp (List.pairwise_cons.mp hs).2).1 q h').le
      rw [if_neg this]
      exact ih r (List.pairwise_cons.mp hs).2 hq'

/-- **C64, customized amplifiers (partial).** For three vectors of equal length (strictly increasing input
amplitudes) the amplifier applies, at every sample point, exactly the gain and phase given for it, and for
every other amplitude a gain and a phase between the smallest and the greatest given ones. Missing: vectors
of different lengths, which are not refused as documented (`C64_custom_fails`). -/
theorem C64_custom_partial (input gains phases : List ℝ) (h1 : input.length = gains.length)
    (h2 : gains.length = phases.length) (h0 : input ≠ []) (hs : input.Pairwise (· < ·)) :
    ∃ c, Custom.create input gains phases = .ok c ∧
      (∀ (z : ℂ) (i : Nat) (a g f : ℝ), input[i]? = some a → gains[i]? = some g → phases[i]? = some f →
        ‖z‖ = a → c.model z = .ok (z * g * Complex.exp (Complex.I * f))) ∧
      (∀ (z : ℂ) (glo ghi flo fhi : ℝ), (∀ g ∈ gains, glo ≤ g ∧ g ≤ ghi) →
        (∀ f ∈ phases, flo ≤ f ∧ f ≤ fhi) → ∃ g f : ℝ, glo ≤ g ∧ g ≤ ghi ∧ flo ≤ f ∧ f ≤ fhi ∧
          c.model z = .ok (z * g * Complex.exp (Complex.I * f))) := by
  refine ⟨⟨input, gains, phases⟩, by unfold Custom.create; rw [if_neg (by simp [h1])], ?_, ?_⟩
  all_goals
    have hzip : ∀ fp : List ℝ, input.length = fp.length →
        (input.zip fp).Pairwise (fun a b => a.1 < b.1) := by
      intro fp hl
      have hm : (input.zip fp).map Prod.fst = input := List.map_fst_zip (le_of_eq hl)
      have hs' := hs
      rw [← hm, List.pairwise_map] at hs'
      exact hs'
    have hne : ∀ fp : List ℝ, input.length = fp.length → ∃ p ps, input.zip fp = p :: ps := by
      intro fp hl
      cases hz : input.zip fp with
      | nil =>
        have := congrArg List.length hz
        rw [List.length_zip, ← hl, min_self] at this
        exact absurd (List.length_eq_zero_iff.mp this) h0
      | cons p ps => exact ⟨p, ps, rfl⟩
  · intro z i a g f hi hg hf hz
    have at_ : ∀ (fp : List ℝ) (v : ℝ), input.length = fp.length → fp[i]? = some v →
        interp ‖z‖ input fp = .ok v := by
      intro fp v hl hv
      obtain ⟨p, ps, hp⟩ := hne fp hl
      have hmem : (a, v) ∈ p :: ps := by
        rw [← hp, List.mem_iff_getElem?]
        exact ⟨i, by rw [List.getElem?_zip_eq_some]; exact ⟨hi, hv⟩⟩
      have hpw := hp ▸ hzip fp hl
      unfold interp
      rw [if_neg (by simp [hl]), hp]
      simp only
      have hnl : ¬ ‖z‖ < p.1 := by
        rw [hz, not_lt]
        rcases List.mem_cons.mp hmem with h | h
        · rw [← h]
        · exact ((List.pairwise_cons.mp hpw).1 _ h).le
      rw [if_neg hnl, interpFrom_at _ _ _ hpw (a, v) hmem hz]
    unfold Custom.model
    simp only [at_ gains g h1 hg, at_ phases f (h1.trans h2) hf]
  · intro z glo ghi flo fhi hg hf
    have range_ : ∀ (fp : List ℝ) (lo hi : ℝ), input.length = fp.length → (∀ v ∈ fp, lo ≤ v ∧ v ≤ hi) →
        ∃ v, interp ‖z‖ input fp = .ok v ∧ lo ≤ v ∧ v ≤ hi := by
      intro fp lo hi hl hr
      obtain ⟨p, ps, hp⟩ := hne fp hl
      have hpw := hp ▸ hzip fp hl
      have hr' : ∀ q ∈ p :: ps, lo ≤ q.2 ∧ q.2 ≤ hi := by
        intro q hq
        rw [← hp] at hq
        exact hr q.2 (List.of_mem_zip hq).2
      unfold interp
      rw [if_neg (by simp [hl]), hp]
      simp only
      split_ifs with h
      · exact ⟨_, rfl, hr' p (by simp)⟩
      · exact ⟨_, rfl, interpFrom_mem lo hi _ p ps hpw (not_lt.mp h) hr'⟩
    obtain ⟨g, g1, g2, g3⟩ := range_ gains glo ghi h1 hg
    obtain ⟨f, f1, f2, f3⟩ := range_ phases flo fhi (h1.trans h2) hf
    refine ⟨g, f, g2, g3, f2, f3, ?_⟩
    unfold Custom.model
    simp only [g1, f1]

/-- C64 is false for customized amplifiers: vectors of different lengths are accepted as soon as the middle one
agrees with one of the others; every sample then raises. -/
theorem C64_custom_fails (input gains phases : List ℝ)
    (h : input.length ≠ gains.length ∨ input.length ≠ phases.length)
    (hmid : gains.length = input.length ∨ gains.length = phases.length) :
    ∃ c, Custom.create input gains phases = .ok c ∧ ∀ z, c.model z = .error .value := by
  refine ⟨⟨input, gains, phases⟩, ?_, ?_⟩
  · unfold Custom.create
    rw [if_neg (by omega)]
  · intro z
    unfold Custom.model
    by_cases h1 : input.length = gains.length
    · have h2 : input.length ≠ phases.length := by omega
      cases hi : interp ‖z‖ input gains with
      | error e =>
        unfold interp at hi
        rw [if_neg (by simp [h1])] at hi
        split at hi
        · cases hi; simp
        · cases hi
      | ok g =>
        simp only
        unfold interp
        rw [if_pos h2]
    · unfold interp
      simp [h1]

/-- C64 is false for memory polynomial amplifiers: no array can be amplified. Signals have two dimensions, which
the windows refuse; a vector would produce a vector, which is not a signal. -/
theorem C64_memory_fails {α : Type} (memoryLen : Nat) (features : List (List α) → List α) (x : NdArray α) :
    memoryPolynomial memoryLen features x = .error .value := by
  unfold memoryPolynomial slidingWindows
  cases hx : x.shape with
  | nil => rfl
  | cons n ns =>
    cases ns with
    | cons m ms => rfl
    | nil =>
      simp only
      split_ifs
      · rfl
      · rfl

/-- C64, setters: negative factors are refused, all others are kept. -/
theorem C64_setters (v : ℝ) :
    (v < 0 → setNonnegative v = .error .value) ∧ (0 ≤ v → setNonnegative v = .ok v) ∧
    (v ≤ 0 → setSmoothness v = .error .value) ∧ (0 < v → setSmoothness v = .ok v) := by
  refine ⟨fun h => if_pos h, fun h => if_neg (not_lt.mpr h), fun h => if_pos h,
    fun h => if_neg (not_le.mpr h)⟩

/-- Two points and three phases are accepted. -/
example : ∃ c, Custom.create [0, 1] [1, 1] [0, 0, 0] = .ok c ∧ ∀ z, c.model z = .error .value :=
  C64_custom_fails _ _ _ (by simp) (by simp)

/-- The hypotheses of `C64_custom_partial` are met by an amplifier compressing from unit gain to a half. -/
example : ∃ c, Custom.create [0, 1] [1, 1 / 2] [0, 3] = .ok c ∧
    c.model 1 = .ok (1 * ((1 / 2 : ℝ) : ℂ) * Complex.exp (Complex.I * ((3 : ℝ) : ℂ))) := by
  obtain ⟨c, h1, h2, -⟩ := C64_custom_partial [0, 1] [1, 1 / 2] [0, 3] rfl rfl (by simp) (by simp)
  exact ⟨c, h1, h2 1 1 1 (1 / 2) 3 rfl rfl rfl (by simp)⟩

/-- Saturation at two: `3 + 4j` leaves with amplitude two. -/
example : ‖propagate 1 (clipping 2) ⟨3, 4⟩‖ = 2 := by
  rw [(C64_clipping 1 2 (by norm_num) (by norm_num) _).1]
  have : ‖(⟨3, 4⟩ : ℂ)‖ = 5 := by
    rw [Complex.norm_def, Complex.normSq_mk, show (3 : ℝ) * 3 + 4 * 4 = 5 ^ 2 by norm_num]
    exact Real.sqrt_sq (by norm_num)
  rw [this]
  norm_num

/-- Rapp's model with a gain of two and smoothness three stays below saturation. -/
example : ‖propagate 2 (rapp 3) 100‖ < 1 := ((C64_rapp 2 3 (by norm_num) (by norm_num)).2.1 100).1

/-- Saleh's usual parameters. -/
example : ‖propagate 1 (saleh 2 1 1 1) 7‖ ≤ 2 / (2 * Real.sqrt 1) :=
  (C64_saleh 1 2 1 1 1 (by norm_num) (by norm_num) (by norm_num)).2.1 7

end Verif.Rf.Amps
