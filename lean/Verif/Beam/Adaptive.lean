import Verif.Beam.Conventional
import Mathlib.Analysis.Matrix.PosDef
import Mathlib.Analysis.Matrix.Order
import Mathlib.LinearAlgebra.Matrix.Rank
import Mathlib.Analysis.InnerProductSpace.PiL2

/-!
# C83: Capon and null steering beamformers

`hermespy/beamforming/capon.py` and `hermespy/beamforming/nullsteeringbeamformer.py`.
-/

namespace Verif.Beam

open Matrix Verif.Core Verif.Core.Ant

open scoped ComplexOrder

/-! ### Capon -/

/-- Sample covariance with diagonal loading, `beamforming/capon.py` 82-84. -/
def covariance {n t : Nat} (X : Matrix (Fin n) (Fin t) ℂ) (loading : ℝ) : Matrix (Fin n) (Fin n) ℂ :=
  X * Xᴴ + (loading : ℂ) • (1 : Matrix (Fin n) (Fin n) ℂ)

/-- Weights of one direction, lines 92-96. -/
noncomputable def caponWeights {n t : Nat} (X : Matrix (Fin n) (Fin t) ℂ) (loading : ℝ) (r : Fin n → ℂ) :
    Fin n → ℂ := fun i =>
  ((covariance X loading)⁻¹.mulVec r) i / (star r ⬝ᵥ (covariance X loading)⁻¹.mulVec r)

/-- `CaponBeamformer._decode`, lines 72-99.  `numpy.linalg.inv` raises on singular matrices (`LinAlgError`, a
`ValueError`). -/
noncomputable def caponDecode (a : Array) (f loading : ℝ) {n t : Nat} (X : Matrix (Fin n) (Fin t) ℂ)
    (angles : List (ℝ × ℝ)) : Except PyErr (List (Fin t → ℂ)) :=
  if (covariance X loading).det = 0 then .error .value
  else collect (fun an =>
    match a.sphericalPhase f an.1 an.2 .rx with
    | .error e => .error e
    | .ok l =>
      match fit l n with
      | .error e => .error e
      | .ok r => .ok fun k => star (caponWeights X loading r) ⬝ᵥ fun i => X i k) angles

/-- `loading` setter, lines 65-70. -/
noncomputable def setLoading (old v : ℝ) : ℝ × Except PyErr Unit :=
  if v < 0 then (old, .error .value) else (v, .ok ())

/-- Phase response of the receiving antennas to a direction in the array's frame, by C80. -/
theorem spherical_eq (a : Array) (hF : Rigid a.forwards) (hx : ∀ x ∈ a.antennas, Rigid x.pose) (f az ze : ℝ)
    (m : Mode) : a.sphericalPhase f az ze m =
      .ok ((a.select m).map fun x => phase (f * dot3 ![Real.cos az * Real.sin ze, Real.sin az * Real.sin ze,
        Real.cos ze] (translation x.pose) / light)) := by
  simp only [Array.sphericalPhase, topology_eq a hF hx m, Except.map, List.map_map]
  rfl

theorem covariance_hermitian {n t : Nat} (X : Matrix (Fin n) (Fin t) ℂ) (loading : ℝ) :
    (covariance X loading)ᴴ = covariance X loading := by
  simp [covariance, conjTranspose_add, conjTranspose_mul, conjTranspose_smul]

theorem dot_conj {n : Nat} (u v : Fin n → ℂ) : star u ⬝ᵥ v = star (star v ⬝ᵥ u) := by
  simp [dotProduct, star_sum, mul_comm]

/-- Power of a weighted sum of the streams, with the penalty of the loading. -/
noncomputable def power {n t : Nat} (X : Matrix (Fin n) (Fin t) ℂ) (loading : ℝ) (v : Fin n → ℂ) : ℝ :=
  (∑ k, ‖star v ⬝ᵥ fun i => X i k‖ ^ 2) + loading * ∑ i, ‖v i‖ ^ 2

theorem quad_power {n t : Nat} (X : Matrix (Fin n) (Fin t) ℂ) (loading : ℝ) (v : Fin n → ℂ) :
    star v ⬝ᵥ (covariance X loading).mulVec v = (power X loading v : ℂ) := by
  rw [covariance, add_mulVec, dotProduct_add, power]
  push_cast
  congr 1
  · rw [← mulVec_mulVec, dotProduct_mulVec]
    simp only [dotProduct]
    refine Finset.sum_congr rfl fun k _ => ?_
    have h1 : (star v ᵥ* X) k = ∑ i, star v i * X i k := rfl
    have h2 : (Xᴴ *ᵥ v) k = star (∑ i, star v i * X i k) := by
      simp only [mulVec, dotProduct, conjTranspose_apply, star_sum, star_mul', Pi.star_apply, star_star]
      exact Finset.sum_congr rfl fun i _ => mul_comm _ _
    rw [h1, h2]
    exact Complex.mul_conj' _
  · rw [smul_mulVec, one_mulVec, dotProduct_smul, smul_eq_mul]
    congr 1
    simp only [dotProduct]
    refine Finset.sum_congr rfl fun i _ => ?_
    rw [mul_comm]
    exact Complex.mul_conj' _

theorem power_nonneg {n t : Nat} (X : Matrix (Fin n) (Fin t) ℂ) {loading : ℝ} (hl : 0 ≤ loading) (v : Fin n → ℂ) :
    0 ≤ power X loading v := by
  unfold power
  have : 0 ≤ ∑ i, ‖v i‖ ^ 2 := Finset.sum_nonneg fun i _ => by positivity
  have : 0 ≤ ∑ k, ‖star v ⬝ᵥ fun i => X i k‖ ^ 2 := Finset.sum_nonneg fun i _ => by positivity
  positivity

theorem covariance_psd {n t : Nat} (X : Matrix (Fin n) (Fin t) ℂ) {loading : ℝ} (hl : 0 ≤ loading) :
    (covariance X loading).PosSemidef := by
  refine PosSemidef.of_dotProduct_mulVec_nonneg (covariance_hermitian X loading) fun v => ?_
  rw [quad_power]
  exact_mod_cast power_nonneg X hl v

/-- C83: with a positive loading the covariance is never singular: every signal can be decoded. -/
theorem covariance_regular {n t : Nat} (X : Matrix (Fin n) (Fin t) ℂ) {loading : ℝ} (hl : 0 < loading) :
    (covariance X loading).det ≠ 0 := by
  have h : (covariance X loading).PosDef := by
    refine PosDef.of_dotProduct_mulVec_pos (covariance_hermitian X loading) fun v hv => ?_
    rw [quad_power]
    have h1 : 0 < ∑ i, ‖v i‖ ^ 2 := by
      obtain ⟨i, hi⟩ := Function.ne_iff.mp hv
      refine Finset.sum_pos' (fun j _ => by positivity) ⟨i, Finset.mem_univ _, ?_⟩
      have : 0 < ‖v i‖ := norm_pos_iff.mpr hi
      positivity
    have h2 : 0 ≤ ∑ k, ‖star v ⬝ᵥ fun i => X i k‖ ^ 2 := Finset.sum_nonneg fun i _ => by positivity
    have : 0 < power X loading v := by unfold power; positivity
    exact_mod_cast this
  exact h.det_pos.ne'

/-- Weights as computed: the response to the direction is one, and no other weights with this response let
less power pass. -/
theorem capon_optimal {n t : Nat} (X : Matrix (Fin n) (Fin t) ℂ) {loading : ℝ} (hl : 0 ≤ loading)
    (hd : (covariance X loading).det ≠ 0) (r : Fin n → ℂ) (hr : r ≠ 0) :
    star (caponWeights X loading r) ⬝ᵥ r = 1 ∧
      ∀ v, star v ⬝ᵥ r = 1 → power X loading (caponWeights X loading r) ≤ power X loading v := by
  set C := covariance X loading with hC
  have hu : IsUnit C.det := isUnit_iff_ne_zero.mpr hd
  have hCC : C * C⁻¹ = 1 := mul_nonsing_inv _ hu
  have hH : Cᴴ = C := covariance_hermitian X loading
  set g := C⁻¹.mulVec r with hg
  have hCg : C.mulVec g = r := by rw [hg, mulVec_mulVec, hCC, one_mulVec]
  have hg0 : g ≠ 0 := by
    rintro h0
    apply hr
    rw [← hCg, h0, mulVec_zero]
  have hD : star r ⬝ᵥ g = (power X loading g : ℂ) := by
    rw [← quad_power, ← hC, hCg]
    have : star r ⬝ᵥ g = star g ⬝ᵥ C.mulVec g := by
      conv_lhs => rw [← hCg]
      rw [star_mulVec, hH, ← dotProduct_mulVec]
    rw [this, hCg]
  set D := power X loading g with hDdef
  have hgr : star g ⬝ᵥ r = (D : ℂ) := by rw [dot_conj, hD]; simp [Complex.conj_ofReal]
  have hDpos : 0 < D := by
    rcases (power_nonneg X hl g).lt_or_eq with h | h
    · exact h
    · exfalso
      apply hr
      have h0 : star g ⬝ᵥ C.mulVec g = 0 := by rw [hC, quad_power, ← h]; simp
      rw [← hCg]
      exact ((covariance_psd X hl).dotProduct_mulVec_zero_iff g).mp h0
  have hw : caponWeights X loading r = (D : ℂ)⁻¹ • g := by
    funext i
    simp only [caponWeights, ← hC, ← hg, hD, Pi.smul_apply, smul_eq_mul]
    rw [div_eq_inv_mul]
  have hDc : (D : ℂ) ≠ 0 := by exact_mod_cast hDpos.ne'
  have hscale : ∀ c : ℝ, power X loading ((c : ℂ) • g) = c ^ 2 * D := by
    intro c
    have : ((power X loading ((c : ℂ) • g) : ℝ) : ℂ) = ((c ^ 2 * D : ℝ) : ℂ) := by
      rw [← quad_power, star_smul, mulVec_smul, smul_dotProduct, dotProduct_smul, quad_power]
      simp only [smul_eq_mul, Complex.star_def, Complex.conj_ofReal]
      push_cast; ring
    exact_mod_cast this
  have hpw : power X loading (caponWeights X loading r) = D⁻¹ := by
    rw [hw, show (D : ℂ)⁻¹ = ((D⁻¹ : ℝ) : ℂ) by push_cast; rfl, hscale]
    field_simp
  constructor
  · rw [hw, star_smul, smul_dotProduct, hgr]
    simp [Complex.conj_ofReal, hDc]
  · intro v hv
    rw [hpw]
    have hrv : star r ⬝ᵥ v = 1 := by rw [dot_conj, hv]; simp
    have h2 : star g ⬝ᵥ C.mulVec v = 1 := by
      rw [dotProduct_mulVec]
      have : star g ᵥ* C = star r := by
        conv_rhs => rw [← hCg, star_mulVec, hH]
      rw [this, hrv]
    have key : (power X loading (v - (D : ℂ)⁻¹ • g) : ℂ) = ((power X loading v - D⁻¹ : ℝ) : ℂ) := by
      rw [← quad_power, mulVec_sub, mulVec_smul, ← hC, hCg, star_sub, star_smul, sub_dotProduct, dotProduct_sub,
        dotProduct_sub, smul_dotProduct, smul_dotProduct, dotProduct_smul, dotProduct_smul, hv, h2, hgr, hC,
        quad_power]
      simp only [smul_eq_mul, Complex.star_def, map_inv₀, Complex.conj_ofReal]
      push_cast
      field_simp
      ring
    have := power_nonneg X hl (v - (D : ℂ)⁻¹ • g)
    have hk : power X loading (v - (D : ℂ)⁻¹ • g) = power X loading v - D⁻¹ := by exact_mod_cast key
    linarith

/-- C83: the Capon beamformer.  Of every signal and for every direction in the array's frame, however the
array is turned, it returns a weighted sum of the streams which keeps waves from this direction as they are,
and among all such sums has the least power, the power of the weights themselves counted with the loading. -/
theorem C83_capon (a : Array) (hF : Rigid a.forwards) (hx : ∀ x ∈ a.antennas, Rigid x.pose) (f loading : ℝ)
    (hl : 0 ≤ loading) {n t : Nat} (h : (a.select .rx).length = n) (hn : n ≠ 0) (X : Matrix (Fin n) (Fin t) ℂ)
    (hd : 0 < loading ∨ (covariance X loading).det ≠ 0) (az ze : ℝ) :
    ∃ (l : List ℂ) (hll : l.length = n) (w : Fin n → ℂ), a.sphericalPhase f az ze .rx = .ok l ∧
      caponDecode a f loading X [(az, ze)] = .ok [fun k => ∑ i, star (w i) * X i k] ∧
      (∑ i : Fin n, star (w i) * l[i.val]'(hll ▸ i.isLt)) = 1 ∧
      ∀ v : Fin n → ℂ, (∑ i : Fin n, star (v i) * l[i.val]'(hll ▸ i.isLt)) = 1 →
        (∑ k, ‖∑ i, star (w i) * X i k‖ ^ 2) + loading * ∑ i, ‖w i‖ ^ 2 ≤
          (∑ k, ‖∑ i, star (v i) * X i k‖ ^ 2) + loading * ∑ i, ‖v i‖ ^ 2 := by
  have hdet : (covariance X loading).det ≠ 0 := hd.elim (covariance_regular X) id
  have hs := spherical_eq a hF hx f az ze .rx
  set l := (a.select .rx).map fun x => phase (f * dot3 ![Real.cos az * Real.sin ze, Real.sin az * Real.sin ze,
        Real.cos ze] (translation x.pose) / light) with hldef
  have hll : l.length = n := by rw [hldef, List.length_map, h]
  have hr : (fun i : Fin n => l[i.val]'(hll ▸ i.isLt)) ≠ 0 := by
    intro h0
    have h1 := congrFun h0 ⟨0, Nat.pos_of_ne_zero hn⟩
    have h2 : ‖l[0]'(by omega)‖ = 1 := by
      simp only [hldef, List.getElem_map]
      exact phase_norm _
    have h1 : l[0]'(by omega) = 0 := h1
    rw [h1, norm_zero] at h2
    exact zero_ne_one h2
  obtain ⟨h1, h2⟩ := capon_optimal X hl hdet _ hr
  refine ⟨l, hll, caponWeights X loading fun i => l[i.val]'(hll ▸ i.isLt), hs, ?_, h1, fun v hv => h2 v hv⟩
  simp only [caponDecode, if_neg hdet, collect, hs, fit, dif_pos hll]
  rfl

/-- C83: loadings below zero are refused, and keep the loading as it was. -/
theorem C83_loading (old v : ℝ) : (v < 0 → setLoading old v = (old, .error .value)) ∧
    (0 ≤ v → setLoading old v = (v, .ok ())) :=
  ⟨fun h => by simp [setLoading, h], fun h => by simp [setLoading, not_lt.mpr h]⟩

example : Rigid demo.forwards ∧ (∀ x ∈ demo.antennas, Rigid x.pose) ∧ 0 < (1e-3 : ℝ) :=
  ⟨demo_rigid.1, demo_rigid.2, by norm_num⟩

/-- C83 fails for signals without loading which are shorter than the number of antennas, or a single wave
without noise: the documented pseudo-inverse is an inverse, and the covariance singular, so decoding raises for
all angles. -/
theorem C83_singular_fails (a : Array) (f : ℝ) {n t : Nat} (X : Matrix (Fin n) (Fin t) ℂ)
    (angles : List (ℝ × ℝ))
    (h : t < n ∨ (1 < n ∧ ∃ (r : Fin n → ℂ) (s : Fin t → ℂ), X = fun i k => r i * s k)) :
    caponDecode a f 0 X angles = .error .value := by
  have : (covariance X 0).det = 0 := by
    by_contra hd
    have hu : IsUnit (covariance X 0) := (isUnit_iff_isUnit_det _).mpr (isUnit_iff_ne_zero.mpr hd)
    have hr : (covariance X 0).rank = n := by rw [rank_of_isUnit _ hu, Fintype.card_fin]
    have hc : covariance X 0 = X * Xᴴ := by simp [covariance]
    have hle : (covariance X 0).rank ≤ X.rank := by rw [hc]; exact rank_mul_le_left _ _
    rcases h with h | ⟨h, r, s, rfl⟩
    · have := rank_le_width X
      omega
    · have : (vecMulVec r s).rank ≤ 1 := rank_vecMulVec_le r s
      have e : (fun i k => r i * s k : Matrix (Fin n) (Fin t) ℂ) = vecMulVec r s := rfl
      rw [e] at hle hr
      omega
  rw [caponDecode, if_pos this]

/-! ### Null steering -/

/-- Contract of `scipy.linalg.pinvh`: a generalised inverse (the first of the Penrose equations). -/
def IsPinv {m : Nat} (pinvh : Matrix (Fin m) (Fin m) ℂ → Matrix (Fin m) (Fin m) ℂ) : Prop :=
  ∀ M, Mᴴ = M → M * pinvh M * M = M

/-- The contract can be met: Hermitian matrices have pseudo-inverses. -/
example : ∃ pinvh : Matrix (Fin 2) (Fin 2) ℂ → Matrix (Fin 2) (Fin 2) ℂ, IsPinv pinvh := by
  have h : ∀ M : Matrix (Fin 2) (Fin 2) ℂ, ∃ G, Mᴴ = M → M * G * M = M := by
    intro M
    by_cases hM : Mᴴ = M
    · have hH : M.IsHermitian := hM
      set U : Matrix (Fin 2) (Fin 2) ℂ := (hH.eigenvectorUnitary : Matrix (Fin 2) (Fin 2) ℂ) with hU
      set D : Matrix (Fin 2) (Fin 2) ℂ := diagonal (fun i => (hH.eigenvalues i : ℂ)) with hD
      have hUU : star U * U = 1 := Unitary.coe_star_mul_self _
      have hs : M = U * D * star U := hH.spectral_theorem
      refine ⟨U * diagonal (fun i => ((hH.eigenvalues i)⁻¹ : ℂ)) * star U, fun _ => ?_⟩
      have gen : ∀ E : Matrix (Fin 2) (Fin 2) ℂ, D * E * D = D → M * (U * E * star U) * M = M := by
        intro E hE
        clear_value U D
        subst hs
        calc U * D * star U * (U * E * star U) * (U * D * star U)
            = U * D * (star U * U) * E * (star U * U) * D * star U := by simp only [Matrix.mul_assoc]
          _ = U * (D * E * D) * star U := by rw [hUU]; simp only [Matrix.mul_one, Matrix.mul_assoc]
          _ = U * D * star U := by rw [hE]
      have e : D * diagonal (fun i => ((hH.eigenvalues i)⁻¹ : ℂ)) * D = D := by
        rw [hD, diagonal_mul_diagonal, diagonal_mul_diagonal]
        congr 1; funext i
        exact mul_inv_mul_cancel _
      exact gen _ e
    · exact ⟨0, fun h => absurd h hM⟩
  choose G hG using h
  exact ⟨G, hG⟩

/-- Responses to the directions to be nulled, as rows: `A.T` of `nullsteeringbeamformer.py` 65. -/
def nulls {n : Nat} (a1 a2 : Fin n → ℂ) : Matrix (Fin 2) (Fin n) ℂ := fun i => if i = 0 then a1 else a2

/-- `PA`, line 66; the conjugate of `A` is the conjugate transpose of `A.T`. -/
def projection {n : Nat} (pinvh : Matrix (Fin 2) (Fin 2) ℂ → Matrix (Fin 2) (Fin 2) ℂ) (B : Matrix (Fin 2) (Fin n) ℂ) :
    Matrix (Fin n) (Fin n) ℂ := Bᴴ * pinvh (B * Bᴴ) * B

/-- Weights before their normalisation, lines 67-68. -/
def rawWeights {n : Nat} (pinvh : Matrix (Fin 2) (Fin 2) ℂ → Matrix (Fin 2) (Fin 2) ℂ) (a0 a1 a2 : Fin n → ℂ) :
    Fin n → ℂ := (1 - projection pinvh (nulls a1 a2)).mulVec a0

/-- Euclidean norm, line 69. -/
noncomputable def norm2 {n : Nat} (v : Fin n → ℂ) : ℝ := Real.sqrt (∑ i, ‖v i‖ ^ 2)

/-- `_weights`, lines 50-70, of three responses; `none` are weights which are not numbers, from a division of
zero by zero. -/
noncomputable def nullWeights {n : Nat} (pinvh : Matrix (Fin 2) (Fin 2) ℂ → Matrix (Fin 2) (Fin 2) ℂ)
    (a0 a1 a2 : Fin n → ℂ) : Option (Fin n → ℂ) :=
  let w := rawWeights pinvh a0 a1 a2
  if norm2 w = 0 then none else some fun i => w i / norm2 w

/-- Responses of all antennas, of any mode: lines 55-63 do not pass the mode. -/
noncomputable def response (a : Array) (f : ℝ) (an : ℝ × ℝ) : Except PyErr (Fin a.antennas.length → ℂ) :=
  match a.sphericalPhase f an.1 an.2 .duplex with
  | .error e => .error e
  | .ok l => fit l a.antennas.length

/-- `_weights`, lines 50-70. -/
noncomputable def weightsOf (pinvh : Matrix (Fin 2) (Fin 2) ℂ → Matrix (Fin 2) (Fin 2) ℂ) (a : Array) (f : ℝ)
    (an : Fin 3 → ℝ × ℝ) : Except PyErr (Option (Fin a.antennas.length → ℂ)) :=
  match response a f (an 0), response a f (an 1), response a f (an 2) with
  | .ok r0, .ok r1, .ok r2 => .ok (nullWeights pinvh r0 r1 r2)
  | .error e, _, _ => .error e
  | _, .error e, _ => .error e
  | _, _, .error e => .error e

/-- `_encode`, lines 72-85: as many streams as weights. -/
noncomputable def nullEncode (pinvh : Matrix (Fin 2) (Fin 2) ℂ → Matrix (Fin 2) (Fin 2) ℂ) (a : Array) (f : ℝ)
    {t : Nat} (s : Fin t → ℂ) (an : Fin 3 → ℝ × ℝ) :
    Except PyErr (Option (Matrix (Fin a.antennas.length) (Fin t) ℂ)) :=
  match weightsOf pinvh a f an with
  | .error e => .error e
  | .ok w => .ok (w.map fun w i k => w i * s k)

/-- `_decode`, lines 87-101, of one focus: the weights of all antennas must fit into a column for the receiving
ones (a single weight fits anyway), and these the number of streams. -/
noncomputable def nullDecode (pinvh : Matrix (Fin 2) (Fin 2) ℂ → Matrix (Fin 2) (Fin 2) ℂ) (a : Array) (f : ℝ)
    {n t : Nat} (X : Matrix (Fin n) (Fin t) ℂ) (an : Fin 3 → ℝ × ℝ) : Except PyErr (Option (Fin t → ℂ)) :=
  match weightsOf pinvh a f an with
  | .error e => .error e
  | .ok w =>
    if h1 : a.antennas.length ≠ 1 ∧ a.antennas.length ≠ (a.select .rx).length then .error .value
    else if h2 : (a.select .rx).length ≠ n then .error .value
    else .ok (w.map fun w k => ∑ i : Fin n, w ⟨i.val, by
      have h3 : (a.select .rx).length ≤ a.antennas.length := List.length_filter_le _ _
      have := i.isLt
      omega⟩ * X i k)

section
variable {n : Nat} {pinvh : Matrix (Fin 2) (Fin 2) ℂ → Matrix (Fin 2) (Fin 2) ℂ}

theorem nulls_projection (hp : IsPinv pinvh) (B : Matrix (Fin 2) (Fin n) ℂ) : B * projection pinvh B = B := by
  set M := B * Bᴴ with hM
  have hH : Mᴴ = M := by rw [hM, conjTranspose_mul, conjTranspose_conjTranspose]
  have h1 := hp M hH
  have h2 : (M * pinvh M * B - B) * (M * pinvh M * B - B)ᴴ = 0 := by
    have e : M * pinvh M * B - B = (M * pinvh M - 1) * B := by rw [Matrix.sub_mul, Matrix.one_mul]
    rw [e, conjTranspose_mul, Matrix.mul_assoc, ← Matrix.mul_assoc B, ← hM, ← Matrix.mul_assoc, Matrix.sub_mul,
      h1, Matrix.one_mul, sub_self, Matrix.zero_mul]
  have h3 := self_mul_conjTranspose_eq_zero.mp h2
  rw [projection, ← hM, ← Matrix.mul_assoc, ← Matrix.mul_assoc, ← hM]
  exact sub_eq_zero.mp h3

theorem projection_hermitian (hp : IsPinv pinvh) (B : Matrix (Fin 2) (Fin n) ℂ) :
    (projection pinvh B)ᴴ = projection pinvh B := by
  set P := projection pinvh B with hP
  have h1 : Pᴴ * P = Pᴴ := by
    have : Pᴴ = Bᴴ * (pinvh (B * Bᴴ))ᴴ * B := by
      rw [hP, projection, conjTranspose_mul, conjTranspose_mul, conjTranspose_conjTranspose, Matrix.mul_assoc]
    rw [this, Matrix.mul_assoc _ B P, hP, nulls_projection hp]
  have h2 := congrArg conjTranspose h1
  rw [conjTranspose_mul, conjTranspose_conjTranspose, h1] at h2
  exact h2

theorem projection_idem (hp : IsPinv pinvh) (B : Matrix (Fin 2) (Fin n) ℂ) :
    projection pinvh B * projection pinvh B = projection pinvh B := by
  conv_lhs => lhs; rw [projection]
  rw [Matrix.mul_assoc, nulls_projection hp, projection]

theorem norm2_sq (v : Fin n → ℂ) : norm2 v ^ 2 = ∑ i, ‖v i‖ ^ 2 :=
  Real.sq_sqrt (Finset.sum_nonneg fun i _ => by positivity)

theorem dot_star_self (v : Fin n → ℂ) : star v ⬝ᵥ v = ((norm2 v ^ 2 : ℝ) : ℂ) := by
  rw [norm2_sq]
  push_cast
  simp only [dotProduct]
  refine Finset.sum_congr rfl fun i _ => ?_
  rw [mul_comm]
  exact Complex.mul_conj' _

theorem cauchy (u v : Fin n → ℂ) : ‖star u ⬝ᵥ v‖ ≤ norm2 u * norm2 v := by
  have h := norm_inner_le_norm (𝕜 := ℂ) (WithLp.toLp 2 u) (WithLp.toLp 2 v)
  rw [EuclideanSpace.inner_eq_star_dotProduct, EuclideanSpace.norm_eq, EuclideanSpace.norm_eq] at h
  simp only at h
  rw [dotProduct_comm]
  exact h

/-- Weights of the null steering beamformer: unit norm, no response to the nulled directions, and the largest
response possible to the conjugate of the focused response. -/
theorem null_weights (hp : IsPinv pinvh) (a0 a1 a2 : Fin n → ℂ) (w : Fin n → ℂ)
    (hw : nullWeights pinvh a0 a1 a2 = some w) :
    norm2 w = 1 ∧ w ⬝ᵥ a1 = 0 ∧ w ⬝ᵥ a2 = 0 ∧
      w ⬝ᵥ star a0 = (norm2 (rawWeights pinvh a0 a1 a2) : ℂ) ∧ 0 < norm2 (rawWeights pinvh a0 a1 a2) ∧
      ∀ v : Fin n → ℂ, norm2 v = 1 → v ⬝ᵥ a1 = 0 → v ⬝ᵥ a2 = 0 →
        ‖v ⬝ᵥ star a0‖ ≤ norm2 (rawWeights pinvh a0 a1 a2) := by
  set B := nulls a1 a2 with hB
  set P := projection pinvh B with hP
  set u := rawWeights pinvh a0 a1 a2 with hu
  have hu' : u = (1 - P).mulVec a0 := rfl
  simp only [nullWeights, ← hu] at hw
  split at hw
  · exact absurd hw (by simp)
  rename_i h0
  cases hw
  have hpos : 0 < norm2 u := lt_of_le_of_ne (Real.sqrt_nonneg _) (Ne.symm h0)
  have hc : (norm2 u : ℂ) ≠ 0 := by exact_mod_cast h0
  have hws : (fun i => u i / (norm2 u : ℂ)) = (norm2 u : ℂ)⁻¹ • u := by
    funext i; simp [div_eq_inv_mul]
  have hBu : B.mulVec u = 0 := by
    rw [hu', mulVec_mulVec, Matrix.mul_sub, Matrix.mul_one, hP, nulls_projection hp, sub_self, zero_mulVec]
  have hrow : ∀ i, u ⬝ᵥ B i = 0 := by
    intro i
    rw [dotProduct_comm]
    exact congrFun hBu i
  have hQ : (1 - P)ᴴ = 1 - P := by
    rw [conjTranspose_sub, conjTranspose_one, hP, projection_hermitian hp]
  have hQQ : (1 - P) * (1 - P) = 1 - P := by
    rw [Matrix.sub_mul, Matrix.mul_sub, Matrix.mul_sub, Matrix.one_mul, Matrix.one_mul, Matrix.mul_one,
      projection_idem hp, sub_self, sub_zero]
  have hself : star a0 ⬝ᵥ u = star u ⬝ᵥ u := by
    conv_rhs => lhs; rw [hu', star_mulVec, hQ]
    rw [← dotProduct_mulVec, hu', mulVec_mulVec, hQQ]
  refine ⟨?_, ?_, ?_, ?_, hpos, ?_⟩
  · have : norm2 (fun i => u i / (norm2 u : ℂ)) ^ 2 = 1 := by
      rw [norm2_sq]
      have e : ∀ i, ‖u i / (norm2 u : ℂ)‖ ^ 2 = ‖u i‖ ^ 2 / norm2 u ^ 2 := by
        intro i
        rw [norm_div, Complex.norm_real, Real.norm_of_nonneg hpos.le, div_pow]
      rw [Finset.sum_congr rfl fun i _ => e i, ← Finset.sum_div, ← norm2_sq]
      field_simp
    have hn : 0 ≤ norm2 (fun i => u i / (norm2 u : ℂ)) := Real.sqrt_nonneg _
    nlinarith
  · rw [hws, smul_dotProduct]
    have := hrow 0
    simp only [hB, nulls, if_true] at this
    rw [this, smul_zero]
  · rw [hws, smul_dotProduct]
    have := hrow 1
    simp only [hB, nulls] at this
    rw [if_neg (by decide)] at this
    rw [this, smul_zero]
  · rw [hws, smul_dotProduct, dotProduct_comm, hself, dot_star_self, smul_eq_mul]
    push_cast
    field_simp
  · intro v hv h1 h2
    have hBv : B.mulVec v = 0 := by
      funext i
      have : (B.mulVec v) i = v ⬝ᵥ B i := by rw [dotProduct_comm]; rfl
      rw [this]
      fin_cases i
      · simpa [hB, nulls] using h1
      · simpa [hB, nulls] using h2
    have hQv : (1 - P).mulVec v = v := by
      rw [sub_mulVec, one_mulVec, hP, projection, ← mulVec_mulVec, hBv, mulVec_zero, sub_zero]
    have e : v ⬝ᵥ star a0 = star (star v ⬝ᵥ u) := by
      rw [hu', dotProduct_mulVec]
      have : star v ᵥ* (1 - P) = star v := by
        conv_rhs => rw [← hQv, star_mulVec, hQ]
      rw [this, ← star_dotProduct_star, star_star, dotProduct_comm]
    rw [e, norm_star]
    simpa [hv] using cauchy v u

end

/-- Every antenna transmits and receives. -/
def Duplex (a : Array) : Prop := ∀ x ∈ a.antennas, x.mode = .duplex

/-- Unit vector of two angles as in C80. -/
noncomputable def towards (an : ℝ × ℝ) : Vec3 :=
  ![Real.cos an.1 * Real.sin an.2, Real.sin an.1 * Real.sin an.2, Real.cos an.2]

/-- Response of all antennas to a direction of the array's frame. -/
noncomputable def wave (a : Array) (f : ℝ) (u : Vec3) (i : Fin a.antennas.length) : ℂ :=
  phase (f * dot3 u (translation a.antennas[i].pose) / light)

theorem response_eq (a : Array) (hF : Rigid a.forwards) (hx : ∀ x ∈ a.antennas, Rigid x.pose) (f : ℝ)
    (an : ℝ × ℝ) : response a f an = .ok (wave a f (towards an)) := by
  have hl : ((a.select .duplex).map fun x => phase (f * dot3 ![Real.cos an.1 * Real.sin an.2,
      Real.sin an.1 * Real.sin an.2, Real.cos an.2] (translation x.pose) / light)).length = a.antennas.length := by
    simp [Array.select]
  rw [response, spherical_eq a hF hx f an.1 an.2 .duplex]
  simp only [fit, dif_pos hl]
  refine congrArg Except.ok ?_
  funext i
  simp only [List.getElem_map, wave, towards, Array.select]
  rfl

theorem weightsOf_eq (pinvh : Matrix (Fin 2) (Fin 2) ℂ → Matrix (Fin 2) (Fin 2) ℂ) (a : Array)
    (hF : Rigid a.forwards) (hx : ∀ x ∈ a.antennas, Rigid x.pose) (f : ℝ) (an : Fin 3 → ℝ × ℝ) :
    weightsOf pinvh a f an = .ok (nullWeights pinvh (wave a f (towards (an 0))) (wave a f (towards (an 1)))
      (wave a f (towards (an 2)))) := by
  simp only [weightsOf, response_eq a hF hx]

theorem select_duplex (a : Array) (hm : Duplex a) (m : Mode) : a.select m = a.antennas := by
  cases m
  · simp only [Array.select, List.filter_eq_self]
    intro x h; simp [hm x h]
  · simp only [Array.select, List.filter_eq_self]
    intro x h; simp [hm x h]
  · rfl

theorem nullDecode_eq (pinvh : Matrix (Fin 2) (Fin 2) ℂ → Matrix (Fin 2) (Fin 2) ℂ) (a : Array) (hm : Duplex a)
    (hF : Rigid a.forwards) (hx : ∀ x ∈ a.antennas, Rigid x.pose) (f : ℝ) (an : Fin 3 → ℝ × ℝ) {t : Nat}
    (X : Matrix (Fin a.antennas.length) (Fin t) ℂ) :
    nullDecode pinvh a f X an = .ok ((nullWeights pinvh (wave a f (towards (an 0))) (wave a f (towards (an 1)))
      (wave a f (towards (an 2)))).map fun w k => ∑ i, w i * X i k) := by
  have hs : (a.select .rx).length = a.antennas.length := by rw [select_duplex a hm]
  rw [nullDecode, weightsOf_eq pinvh a hF hx]
  dsimp only
  rw [dif_neg (by rw [hs]; tauto), dif_neg (by rw [hs]; tauto)]

/-- C83: nulls.  If all antennas transmit and receive, and the weights are numbers at all, then waves from both
nulled directions of the array's frame are suppressed completely, in reception as well as in transmission, for
arrays of any shape and pose; the weights have unit norm.  Missing for the full claim: the focus
(`C83_mirror_fails`, `C83_focus_fails`), the default focus points (`C83_default_fails`) and arrays of other
modes (`C83_modes_fails`). -/
theorem C83_nulls_partial (pinvh : Matrix (Fin 2) (Fin 2) ℂ → Matrix (Fin 2) (Fin 2) ℂ) (hp : IsPinv pinvh)
    (a : Array) (hm : Duplex a) (hF : Rigid a.forwards) (hx : ∀ x ∈ a.antennas, Rigid x.pose) (f : ℝ)
    (an : Fin 3 → ℝ × ℝ) (w : Fin a.antennas.length → ℂ) (hw : weightsOf pinvh a f an = .ok (some w)) {t : Nat}
    (s : Fin t → ℂ) (j : Fin 3) (hj : j ≠ 0) :
    nullDecode pinvh a f (fun i k => wave a f (towards (an j)) i * s k) an = .ok (some 0) ∧
    (∃ rows, nullEncode pinvh a f s an = .ok (some rows) ∧
      (∀ k, ∑ i, wave a f (towards (an j)) i * rows i k = 0) ∧
      ∀ k, ∑ i, ‖rows i k‖ ^ 2 = ‖s k‖ ^ 2) := by
  have hw' := hw
  rw [weightsOf_eq pinvh a hF hx] at hw'
  have hn := Except.ok.inj hw'
  obtain ⟨h1, h2, h3, -⟩ := null_weights hp _ _ _ w hn
  have hz : ∑ i, w i * wave a f (towards (an j)) i = 0 := by
    fin_cases j
    · exact absurd rfl hj
    · exact h2
    · exact h3
  refine ⟨?_, fun i k => w i * s k, ?_, ?_, ?_⟩
  · refine (nullDecode_eq pinvh a hm hF hx f an _).trans ?_
    rw [hn]
    refine congrArg Except.ok (congrArg some ?_)
    funext k
    have : ∀ i, w i * (wave a f (towards (an j)) i * s k) = w i * wave a f (towards (an j)) i * s k := by
      intro i; ring
    change ∑ i, w i * (wave a f (towards (an j)) i * s k) = 0
    rw [Finset.sum_congr rfl fun i _ => this i, ← Finset.sum_mul, hz, zero_mul]
  · simp only [nullEncode, hw]
    rfl
  · intro k
    have : ∀ i, wave a f (towards (an j)) i * (w i * s k) = w i * wave a f (towards (an j)) i * s k := by
      intro i; ring
    rw [Finset.sum_congr rfl fun i _ => this i, ← Finset.sum_mul, hz, zero_mul]
  · intro k
    simp only [norm_mul, mul_pow]
    rw [← Finset.sum_mul, ← norm2_sq, h1]
    ring

theorem wave_neg (a : Array) (f : ℝ) (u : Vec3) : wave a f (-u) = star (wave a f u) := by
  funext i
  simp only [wave, Pi.star_apply, phase, Complex.star_def, ← Complex.exp_conj]
  congr 1
  have : dot3 (-u) (translation a.antennas[i].pose) = -dot3 u (translation a.antennas[i].pose) := by
    simp [dot3]; ring
  rw [this]
  simp only [map_mul, Complex.conj_ofReal, Complex.conj_I, map_ofNat]
  push_cast
  ring

/-- C83 fails for the focus, whatever array and angles: the beam is pointed in the direction opposite to the
one focused.  Waves from there are received with the largest amplitude which unit norm weights with these nulls
can have, for the responses lack a conjugation. -/
theorem C83_mirror_fails (pinvh : Matrix (Fin 2) (Fin 2) ℂ → Matrix (Fin 2) (Fin 2) ℂ) (hp : IsPinv pinvh)
    (a : Array) (hm : Duplex a) (hF : Rigid a.forwards) (hx : ∀ x ∈ a.antennas, Rigid x.pose) (f : ℝ)
    (an : Fin 3 → ℝ × ℝ) (w : Fin a.antennas.length → ℂ) (hw : weightsOf pinvh a f an = .ok (some w)) :
    ∃ g : ℝ, 0 < g ∧
      (∀ (t : Nat) (s : Fin t → ℂ), nullDecode pinvh a f (fun i k => wave a f (-towards (an 0)) i * s k) an =
        .ok (some fun k => g * s k)) ∧
      ∀ v : Fin a.antennas.length → ℂ, ∑ i, ‖v i‖ ^ 2 = 1 →
        ∑ i, v i * wave a f (towards (an 1)) i = 0 → ∑ i, v i * wave a f (towards (an 2)) i = 0 →
        ‖∑ i, v i * wave a f (-towards (an 0)) i‖ ≤ g := by
  rw [weightsOf_eq pinvh a hF hx] at hw
  have hn := Except.ok.inj hw
  obtain ⟨-, -, -, h4, h5, h6⟩ := null_weights hp _ _ _ w hn
  refine ⟨_, h5, fun t s => ?_, fun v hv h1 h2 => ?_⟩
  · refine (nullDecode_eq pinvh a hm hF hx f an _).trans ?_
    rw [hn]
    refine congrArg Except.ok (congrArg some ?_)
    funext k
    have : ∀ i, w i * (wave a f (-towards (an 0)) i * s k) =
        w i * star (wave a f (towards (an 0))) i * s k := by
      intro i; rw [wave_neg]; ring
    change ∑ i, w i * (wave a f (-towards (an 0)) i * s k) = _
    rw [Finset.sum_congr rfl fun i _ => this i, ← Finset.sum_mul]
    exact congrArg (· * s k) h4
  · rw [wave_neg]
    refine h6 v ?_ h1 h2
    rw [norm2, hv, Real.sqrt_one]

theorem raw_opposite {n : Nat} {pinvh : Matrix (Fin 2) (Fin 2) ℂ → Matrix (Fin 2) (Fin 2) ℂ}
    (hp : IsPinv pinvh) (a0 a1 a2 : Fin n → ℂ) (h : a0 = star a1 ∨ a0 = star a2) :
    nullWeights pinvh a0 a1 a2 = none := by
  have hz : rawWeights pinvh a0 a1 a2 = 0 := by
    set B := nulls a1 a2 with hB
    have hPB : projection pinvh B * Bᴴ = Bᴴ := by
      have := congrArg conjTranspose (nulls_projection hp B)
      rwa [conjTranspose_mul, projection_hermitian hp] at this
    obtain ⟨j, hj⟩ : ∃ j, a0 = Bᴴ.mulVec (Pi.single j 1) := by
      rcases h with h | h
      · refine ⟨0, ?_⟩
        rw [h]; funext i; simp [hB, nulls, col_apply]
      · refine ⟨1, ?_⟩
        rw [h]; funext i; simp [hB, nulls, col_apply]
    rw [rawWeights, ← hB, hj, mulVec_mulVec, Matrix.sub_mul, hPB, Matrix.one_mul, sub_self, zero_mulVec]
  simp [nullWeights, hz, norm2]

/-- C83 fails for the default focus points of the beamformer on planar arrays, and on all arrays whenever a
direction to be nulled is opposite to the focus: the weights are not numbers, nor is anything transmitted with
them. -/
theorem C83_default_fails (pinvh : Matrix (Fin 2) (Fin 2) ℂ → Matrix (Fin 2) (Fin 2) ℂ) (hp : IsPinv pinvh)
    (a : Array) (hF : Rigid a.forwards) (hx : ∀ x ∈ a.antennas, Rigid x.pose) (f : ℝ) (an : Fin 3 → ℝ × ℝ)
    (h : ((∀ x ∈ a.antennas, translation x.pose 2 = 0) ∧ an = fun _ => (0, 0)) ∨
      ∃ j, j ≠ 0 ∧ towards (an j) = -towards (an 0)) {t : Nat} (s : Fin t → ℂ) :
    weightsOf pinvh a f an = .ok none ∧ nullEncode pinvh a f s an = .ok none := by
  have hw : weightsOf pinvh a f an = .ok none := by
    rw [weightsOf_eq pinvh a hF hx]
    refine congrArg Except.ok (raw_opposite hp _ _ _ ?_)
    rcases h with ⟨h, rfl⟩ | ⟨j, hj, h⟩
    · left
      funext i
      have h0 : dot3 (towards (0, 0)) (translation a.antennas[i].pose) = 0 := by
        simp [dot3, towards, h _ (List.getElem_mem _)]
      simp only [wave, Pi.star_apply, h0]
      simp [phase_zero]
    · have e : wave a f (towards (an 0)) = star (wave a f (towards (an j))) := by
        rw [← wave_neg, h, neg_neg]
      fin_cases j
      · exact absurd rfl hj
      · exact .inl e
      · exact .inr e
  exact ⟨hw, by simp only [nullEncode, hw]; rfl⟩

/-- C83 fails for arrays with antennas of different modes: signals with a stream per receiving antenna are
refused, and signals to be transmitted are spread over all antennas, the receiving ones included. -/
theorem C83_modes_fails (pinvh : Matrix (Fin 2) (Fin 2) ℂ → Matrix (Fin 2) (Fin 2) ℂ)
    (a : Array) (hF : Rigid a.forwards) (hx : ∀ x ∈ a.antennas, Rigid x.pose) (f : ℝ) (an : Fin 3 → ℝ × ℝ)
    (h1 : a.antennas.length ≠ 1) (h2 : (a.select .rx).length ≠ a.antennas.length) {t : Nat}
    (X : Matrix (Fin (a.select .rx).length) (Fin t) ℂ) :
    nullDecode pinvh a f X an = .error .value := by
  rw [nullDecode, weightsOf_eq pinvh a hF hx]
  dsimp only
  rw [dif_pos ⟨h1, h2.symm⟩]

example : (⟨1, [⟨.tx, .ideal, 1⟩, ⟨.rx, .ideal, 1⟩]⟩ : Array).antennas.length ≠ 1 ∧
    ((⟨1, [⟨.tx, .ideal, 1⟩, ⟨.rx, .ideal, 1⟩]⟩ : Array).select .rx).length ≠ 2 := by
  simp [Array.select]

/-- Four antennas half a wavelength apart on the x axis. -/
noncomputable def row (F : Mat4) (f : ℝ) : Array :=
  ⟨F, [⟨.duplex, .ideal, assemble 1 ![light / (2 * f) * 0, 0, 0]⟩,
    ⟨.duplex, .ideal, assemble 1 ![light / (2 * f) * 1, 0, 0]⟩,
    ⟨.duplex, .ideal, assemble 1 ![light / (2 * f) * 2, 0, 0]⟩,
    ⟨.duplex, .ideal, assemble 1 ![light / (2 * f) * 3, 0, 0]⟩]⟩

theorem row_rigid (F : Mat4) (f : ℝ) : ∀ x ∈ (row F f).antennas, Rigid x.pose := by
  intro x hx
  have hone : IsRotation (1 : Mat3) := ⟨by simp, by simp, by simp⟩
  simp only [row, List.mem_cons, List.not_mem_nil, or_false] at hx
  rcases hx with rfl | rfl | rfl | rfl <;> exact ⟨1, _, hone, rfl⟩

theorem row_duplex (F : Mat4) (f : ℝ) : Duplex (row F f) := by
  intro x hx
  simp only [row, List.mem_cons, List.not_mem_nil, or_false] at hx
  rcases hx with rfl | rfl | rfl | rfl <;> rfl

theorem phase_nat (x : ℝ) (i : Nat) : phase (x * i) = phase x ^ i := by
  rw [phase, phase, ← Complex.exp_nat_mul]
  congr 1; push_cast; ring

/-- Responses of the four antennas are powers of one phase. -/
theorem row_wave (F : Mat4) (f : ℝ) (hf : 0 < f) (u : Vec3) :
    wave (row F f) f u = fun i => phase (u 0 / 2) ^ i.val := by
  have hl : (0 : ℝ) < light := by norm_num [light]
  have key : ∀ i : Nat, f * dot3 u ![light / (2 * f) * i, 0, 0] / light = u 0 / 2 * i := by
    intro i
    simp [dot3]
    field_simp
  funext i
  match i with
  | ⟨0, _⟩ =>
    have := key 0
    rw [← phase_nat, ← this]
    simp [wave, row, translation_of]
  | ⟨1, _⟩ =>
    have := key 1
    rw [← phase_nat, ← this]
    simp [wave, row, translation_of]
  | ⟨2, _⟩ =>
    have := key 2
    rw [← phase_nat, ← this]
    simp [wave, row, translation_of]
  | ⟨3, _⟩ =>
    have := key 3
    rw [← phase_nat, ← this]
    simp [wave, row, translation_of]

theorem row_sum (F : Mat4) (f : ℝ) {M : Type} [AddCommMonoid M] (g : Nat → M) :
    ∑ i : Fin (row F f).antennas.length, g i.val = g 0 + g 1 + g 2 + g 3 :=
  Fin.sum_univ_four (fun i : Fin 4 => g i.val)

theorem phase_quarter : phase (1 / 4) = Complex.I := by
  rw [phase]
  rw [show (2 * (Real.pi : ℂ) * ((1 / 4 : ℝ) : ℂ) * Complex.I) = Real.pi / 2 * Complex.I by push_cast; ring]
  exact Complex.exp_pi_div_two_mul_I

theorem phase_neg_quarter : phase (-(1 / 4)) = -Complex.I := by
  have h := phase_cancel (1 / 4)
  rw [phase_quarter] at h
  have := congrArg (· * -Complex.I) h
  simpa [mul_assoc] using this

theorem raw_orthogonal {n : Nat} (pinvh : Matrix (Fin 2) (Fin 2) ℂ → Matrix (Fin 2) (Fin 2) ℂ)
    (a0 a1 a2 : Fin n → ℂ) (h1 : a1 ⬝ᵥ a0 = 0) (h2 : a2 ⬝ᵥ a0 = 0) : rawWeights pinvh a0 a1 a2 = a0 := by
  have hB : (nulls a1 a2).mulVec a0 = 0 := by
    funext i
    fin_cases i
    · exact h1
    · exact h2
  rw [rawWeights, sub_mulVec, one_mulVec, projection, ← mulVec_mulVec, hB, mulVec_zero, sub_zero]

/-- C83 fails for the focus of a uniform linear array, at every place and frequency: four antennas half a
wavelength apart, focused thirty degrees off their broadside while broadside and endfire are nulled, receive
nothing at all from the focus and twice the signal from the mirrored direction. -/
theorem C83_focus_fails (pinvh : Matrix (Fin 2) (Fin 2) ℂ → Matrix (Fin 2) (Fin 2) ℂ)
    (F : Mat4) (hF : Rigid F) (f : ℝ) (hf : 0 < f) {t : Nat} (s : Fin t → ℂ) :
    let an : Fin 3 → ℝ × ℝ := ![(0, Real.pi / 6), (0, 0), (0, Real.pi / 2)]
    nullDecode pinvh (row F f) f (fun i k => wave (row F f) f (towards (0, Real.pi / 6)) i * s k) an =
        .ok (some 0) ∧
      nullDecode pinvh (row F f) f (fun i k => wave (row F f) f (towards (0, -(Real.pi / 6))) i * s k) an =
        .ok (some fun k => 2 * s k) := by
  intro an
  have w0 : wave (row F f) f (towards (0, Real.pi / 6)) = fun i => Complex.I ^ i.val := by
    rw [row_wave F f hf, ← phase_quarter]
    simp [towards]; norm_num
  have w1 : wave (row F f) f (towards (0, 0)) = fun i => 1 ^ i.val := by
    rw [row_wave F f hf, ← phase_zero]
    simp [towards]
  have w2 : wave (row F f) f (towards (0, Real.pi / 2)) = fun i => (-1) ^ i.val := by
    rw [row_wave F f hf, ← phase_half]
    simp [towards]
  have wm : wave (row F f) f (towards (0, -(Real.pi / 6))) = fun i => (-Complex.I) ^ i.val := by
    rw [row_wave F f hf, ← phase_neg_quarter]
    simp [towards]; norm_num
  have hraw : rawWeights pinvh (wave (row F f) f (towards (an 0))) (wave (row F f) f (towards (an 1)))
      (wave (row F f) f (towards (an 2))) = fun i => Complex.I ^ i.val := by
    have e0 : wave (row F f) f (towards (an 0)) = fun i => Complex.I ^ i.val := w0
    have e1 : wave (row F f) f (towards (an 1)) = fun i => 1 ^ i.val := w1
    have e2 : wave (row F f) f (towards (an 2)) = fun i => (-1) ^ i.val := w2
    rw [e0, e1, e2]
    refine raw_orthogonal pinvh _ _ _ ?_ ?_
    · refine (row_sum F f fun i => 1 ^ i * Complex.I ^ i).trans ?_
      simp [pow_succ]
    · refine (row_sum F f fun i => (-1) ^ i * Complex.I ^ i).trans ?_
      simp [pow_succ]
  have hn : norm2 (fun i : Fin (row F f).antennas.length => Complex.I ^ i.val) = 2 := by
    rw [norm2, row_sum F f fun i => ‖Complex.I ^ i‖ ^ 2]
    simp
    rw [show (1 + 1 + 1 + 1 : ℝ) = 2 ^ 2 by norm_num, Real.sqrt_sq (by norm_num)]
  have hw : nullWeights pinvh (wave (row F f) f (towards (an 0))) (wave (row F f) f (towards (an 1)))
      (wave (row F f) f (towards (an 2))) = some fun i => Complex.I ^ i.val / 2 := by
    simp only [nullWeights, hraw, hn]
    norm_num
  constructor
  · refine (nullDecode_eq pinvh (row F f) (row_duplex F f) hF (row_rigid F f) f an _).trans ?_
    rw [hw, w0]
    refine congrArg Except.ok (congrArg some ?_)
    funext k
    refine (row_sum F f fun i => Complex.I ^ i / 2 * (Complex.I ^ i * s k)).trans ?_
    simp [pow_succ]
    ring_nf
    simp
  · refine (nullDecode_eq pinvh (row F f) (row_duplex F f) hF (row_rigid F f) f an _).trans ?_
    rw [hw, wm]
    refine congrArg Except.ok (congrArg some ?_)
    funext k
    refine (row_sum F f fun i => Complex.I ^ i / 2 * ((-Complex.I) ^ i * s k)).trans ?_
    simp [pow_succ]
    ring_nf
    simp
    try ring

end Verif.Beam
