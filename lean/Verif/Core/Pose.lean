import Verif.Np
import Mathlib.LinearAlgebra.Matrix.NonsingularInverse
import Mathlib.LinearAlgebra.Matrix.Notation
import Mathlib.LinearAlgebra.Matrix.Determinant.Basic
import Mathlib.Analysis.SpecialFunctions.Complex.Arg
import Mathlib.Analysis.SpecialFunctions.Trigonometric.Inverse
import Mathlib.Tactic.LinearCombination
import Mathlib.Tactic.FinCases

/-!
# C28, C29: poses and directions

`hermespy/core/transformation.py`.  Floating point numbers are idealised as reals; `arctan2(y, x)` is
the argument of `x + i y`.
-/

namespace Verif.Core

open Matrix

abbrev Vec3 := Fin 3 → ℝ
abbrev Mat3 := Matrix (Fin 3) (Fin 3) ℝ
abbrev Mat4 := Matrix (Fin 4) (Fin 4) ℝ

/-- `np.arctan2`. -/
noncomputable def arctan2 (y x : ℝ) : ℝ := Complex.arg ⟨x, y⟩

/-- `_rotation_from_rpy`, `transformation.py` 265-294. -/
noncomputable def rotationFromRpy (rpy : Vec3) : Mat3 :=
  let c := fun i => Real.cos (rpy i)
  let s := fun i => Real.sin (rpy i)
  !![c 2 * c 1, c 2 * s 1 * s 0 - s 2 * c 0, c 2 * s 1 * c 0 + s 2 * s 0;
     s 2 * c 1, s 2 * s 1 * s 0 + c 2 * c 0, s 2 * s 1 * c 0 - c 2 * s 0;
     -s 1, c 1 * s 0, c 1 * c 0]

/-- `_rotation_from_quaternion`, `transformation.py` 166-197, with `q = (w, x, y, z)`. -/
noncomputable def rotationFromQuaternion (q : Fin 4 → ℝ) (normalize : Bool) : Mat3 :=
  let n := Real.sqrt (q 0 ^ 2 + q 1 ^ 2 + q 2 ^ 2 + q 3 ^ 2)
  let q := if normalize then fun i => q i / n else q
  !![1 - 2 * (q 2 ^ 2 + q 3 ^ 2), 2 * (q 1 * q 2 - q 0 * q 3), 2 * (q 0 * q 2 + q 1 * q 3);
     2 * (q 1 * q 2 + q 0 * q 3), 1 - 2 * (q 1 ^ 2 + q 3 ^ 2), 2 * (q 2 * q 3 - q 0 * q 1);
     2 * (q 1 * q 3 - q 0 * q 2), 2 * (q 0 * q 1 + q 2 * q 3), 1 - 2 * (q 1 ^ 2 + q 2 ^ 2)]

/-- A transformation matrix assembled from rotation and position, `transformation.py` 316-330 and
344-356. -/
def assemble (R : Mat3) (p : Vec3) : Mat4 :=
  !![R 0 0, R 0 1, R 0 2, p 0;
     R 1 0, R 1 1, R 1 2, p 1;
     R 2 0, R 2 1, R 2 2, p 2;
     0, 0, 0, 1]

/-- `Transformation.From_RPY`, `transformation.py` 333-356. -/
noncomputable def fromRpy (rpy pos : Vec3) : Mat4 := assemble (rotationFromRpy rpy) pos

/-- `Transformation.From_Quaternion`, `transformation.py` 297-330. -/
noncomputable def fromQuaternion (q : Fin 4 → ℝ) (pos : Vec3) (normalize : Bool := true) : Mat4 :=
  assemble (rotationFromQuaternion q normalize) pos

/-- Rotational part `self[:3, :3]`. -/
def rot (T : Mat4) : Mat3 := !![T 0 0, T 0 1, T 0 2; T 1 0, T 1 1, T 1 2; T 2 0, T 2 1, T 2 2]

/-- `rotation_rpy`, `transformation.py` 142-158. -/
noncomputable def rotationRpy (T : Mat4) : Vec3 :=
  let c := Real.sqrt (T 0 0 ^ 2 + T 1 0 ^ 2)
  if c ≠ 0 then
    ![arctan2 (T 2 1 / c) (T 2 2 / c), arctan2 (-T 2 0) c, arctan2 (T 1 0 / c) (T 0 0 / c)]
  else ![arctan2 (T 0 1) (T 1 1), 0.5 * Real.pi, 0]

/-- `rotation_quaternion`, `transformation.py` 200-253. -/
noncomputable def rotationQuaternion (T : Mat4) : Fin 4 → ℝ :=
  let tr := T 0 0 + T 1 1 + T 2 2
  if tr > 0 then
    let S := 2 * Real.sqrt (tr + 1)
    ![0.25 / S, (T 2 1 - T 1 2) / S, (T 0 2 - T 2 0) / S, (T 1 0 - T 0 1) / S]
  else if T 0 0 > T 1 1 ∧ T 0 0 > T 2 2 then
    let S := 2 * Real.sqrt (1 + T 0 0 - T 1 1 - T 2 2)
    ![(T 2 1 - T 1 2) / S, 0.25 / S, (T 0 1 + T 1 0) / S, (T 0 2 + T 2 0) / S]
  else if T 1 1 > T 2 2 then
    let S := 2 * Real.sqrt (1 + T 1 1 - T 0 0 - T 2 2)
    ![(T 0 2 - T 2 0) / S, (T 0 1 + T 1 0) / S, 0.25 / S, (T 1 2 + T 2 1) / S]
  else
    let S := 2 * Real.sqrt (1 + T 2 2 - T 0 0 - T 1 1)
    ![(T 1 0 - T 0 1) / S, (T 0 2 + T 2 0) / S, (T 1 2 + T 2 1) / S, 0.25 / S]

/-- `transform_position` of a three-dimensional position, `transformation.py` 377-399. -/
def transformPosition (T : Mat4) (p : Vec3) : Vec3 :=
  let r := T.mulVec ![p 0, p 1, p 2, 1]
  ![r 0, r 1, r 2]

/-- `rotate_direction` of a three-dimensional vector, `transformation.py` 401-419. -/
def rotateDirection (T : Mat4) (d : Vec3) : Vec3 := (rot T).mulVec d

/-- `rotate_direction` of a two-dimensional vector: only the leading `2 × 2` block is applied, the
third component is set to zero by `From_Cartesian`. -/
def rotateDirection2 (T : Mat4) (d : Fin 2 → ℝ) : Vec3 :=
  ![T 0 0 * d 0 + T 0 1 * d 1, T 1 0 * d 0 + T 1 1 * d 1, 0]

/-- `invert`, `transformation.py` 435-441; `LinAlgError` (modelled as `ValueError`) if singular. -/
noncomputable def invert (T : Mat4) : Except PyErr Mat4 :=
  if T.det = 0 then .error .value else .ok T⁻¹

/-! ### Rigidity -/

/-- A rotation: orthonormal with determinant one. -/
def IsRotation (R : Mat3) : Prop := R * Rᵀ = 1 ∧ Rᵀ * R = 1 ∧ R.det = 1

theorem isRotation_of (R : Mat3) (h : R * Rᵀ = 1) (hd : R.det = 1) : IsRotation R :=
  ⟨h, mul_eq_one_comm.mp h, hd⟩

theorem IsRotation.mul {R S : Mat3} (hR : IsRotation R) (hS : IsRotation S) : IsRotation (R * S) := by
  refine isRotation_of _ ?_ (by rw [det_mul, hR.2.2, hS.2.2, one_mul])
  rw [transpose_mul, ← Matrix.mul_assoc, Matrix.mul_assoc R S, hS.1, Matrix.mul_one, hR.1]

theorem rpy_isRotation (rpy : Vec3) : IsRotation (rotationFromRpy rpy) := by
  have hz : ∀ a : ℝ, IsRotation !![Real.cos a, -Real.sin a, 0; Real.sin a, Real.cos a, 0; 0, 0, 1] := by
    intro a
    have h := Real.sin_sq_add_cos_sq a
    refine isRotation_of _ ?_ ?_
    · ext i j
      fin_cases i <;> fin_cases j <;> simp [Matrix.mul_apply, Fin.sum_univ_three] <;> linarith
    · rw [det_fin_three]; simp; linarith
  have hy : ∀ a : ℝ, IsRotation !![Real.cos a, 0, Real.sin a; 0, 1, 0; -Real.sin a, 0, Real.cos a] := by
    intro a
    have h := Real.sin_sq_add_cos_sq a
    refine isRotation_of _ ?_ ?_
    · ext i j
      fin_cases i <;> fin_cases j <;> simp [Matrix.mul_apply, Fin.sum_univ_three] <;> linarith
    · rw [det_fin_three]; simp; linarith
  have hx : ∀ a : ℝ, IsRotation !![1, 0, 0; 0, Real.cos a, -Real.sin a; 0, Real.sin a, Real.cos a] := by
    intro a
    have h := Real.sin_sq_add_cos_sq a
    refine isRotation_of _ ?_ ?_
    · ext i j
      fin_cases i <;> fin_cases j <;> simp [Matrix.mul_apply, Fin.sum_univ_three] <;> linarith
    · rw [det_fin_three]; simp; linarith
  have : rotationFromRpy rpy =
      !![Real.cos (rpy 2), -Real.sin (rpy 2), 0; Real.sin (rpy 2), Real.cos (rpy 2), 0; 0, 0, 1]
      * !![Real.cos (rpy 1), 0, Real.sin (rpy 1); 0, 1, 0; -Real.sin (rpy 1), 0, Real.cos (rpy 1)]
      * !![1, 0, 0; 0, Real.cos (rpy 0), -Real.sin (rpy 0); 0, Real.sin (rpy 0), Real.cos (rpy 0)] := by
    ext i j
    fin_cases i <;> fin_cases j <;>
      simp [rotationFromRpy, Matrix.mul_apply, Fin.sum_univ_three] <;> ring
  rw [this]
  exact ((hz _).mul (hy _)).mul (hx _)

theorem rot_assemble (R : Mat3) (p : Vec3) : rot (assemble R p) = R := by
  ext i j; fin_cases i <;> fin_cases j <;> rfl

/-- C28: every pose from roll, pitch and yaw is a proper rotation at the given position. -/
theorem C28_rpy_rigid (rpy pos : Vec3) :
    IsRotation (rot (fromRpy rpy pos)) ∧ transformPosition (fromRpy rpy pos) 0 = pos := by
  refine ⟨by rw [fromRpy, rot_assemble]; exact rpy_isRotation rpy, ?_⟩
  funext i
  fin_cases i <;> simp [transformPosition, fromRpy, assemble, Matrix.mulVec, dotProduct, Fin.sum_univ_four]

theorem quaternion_isRotation_unit (q : Fin 4 → ℝ)
    (h : q 0 ^ 2 + q 1 ^ 2 + q 2 ^ 2 + q 3 ^ 2 = 1) : IsRotation (rotationFromQuaternion q false) := by
  have h0 : q 0 ^ 2 = 1 - q 1 ^ 2 - q 2 ^ 2 - q 3 ^ 2 := by linarith
  refine isRotation_of _ ?_ ?_
  · ext i j
    fin_cases i <;> fin_cases j <;>
      simp [rotationFromQuaternion, Matrix.mul_apply, Fin.sum_univ_three] <;> ring_nf <;>
      simp only [h0] <;> ring
  · rw [det_fin_three]
    simp [rotationFromQuaternion]
    ring_nf
    have h4 : q 0 ^ 4 = (1 - q 1 ^ 2 - q 2 ^ 2 - q 3 ^ 2) ^ 2 := by rw [← h0]; ring
    simp only [h4, h0]
    ring

/-- C28: every non-zero quaternion yields a proper rotation. -/
theorem C28_quaternion_rigid (q : Fin 4 → ℝ) (pos : Vec3) (h : q ≠ 0) :
    IsRotation (rot (fromQuaternion q pos)) := by
  rw [fromQuaternion, rot_assemble]
  have hpos : 0 < q 0 ^ 2 + q 1 ^ 2 + q 2 ^ 2 + q 3 ^ 2 := by
    by_contra hn
    apply h
    have h0 := sq_nonneg (q 0)
    have h1 := sq_nonneg (q 1)
    have h2 := sq_nonneg (q 2)
    have h3 := sq_nonneg (q 3)
    funext i
    fin_cases i <;> (apply pow_eq_zero_iff (two_ne_zero) |>.mp; dsimp; linarith)
  have := quaternion_isRotation_unit
    (fun i => q i / Real.sqrt (q 0 ^ 2 + q 1 ^ 2 + q 2 ^ 2 + q 3 ^ 2)) (by
      simp only [div_pow, Real.sq_sqrt hpos.le]
      field_simp)
  exact this

example : (![1, 2, 3, 4] : Fin 4 → ℝ) ≠ 0 := fun h => by simpa using congrFun h 0

/-- C28: a quaternion and any positive or negative multiple describe the same rotation. -/
theorem C28_quaternion_scale (q : Fin 4 → ℝ) (pos : Vec3) (k : ℝ) (hk : k ≠ 0) :
    fromQuaternion (fun i => k * q i) pos = fromQuaternion q pos := by
  unfold fromQuaternion
  congr 1
  have hn : Real.sqrt ((k * q 0) ^ 2 + (k * q 1) ^ 2 + (k * q 2) ^ 2 + (k * q 3) ^ 2) =
      |k| * Real.sqrt (q 0 ^ 2 + q 1 ^ 2 + q 2 ^ 2 + q 3 ^ 2) := by
    rw [← Real.sqrt_sq_eq_abs, ← Real.sqrt_mul (sq_nonneg k)]
    congr 1; ring
  unfold rotationFromQuaternion
  simp only [hn, if_true]
  generalize Real.sqrt (q 0 ^ 2 + q 1 ^ 2 + q 2 ^ 2 + q 3 ^ 2) = n
  have key : ∀ i j, k * q i / (|k| * n) * (k * q j / (|k| * n)) = q i / n * (q j / n) := by
    intro i j
    have : |k| * |k| = k * k := abs_mul_abs_self k
    have hk' : |k| ≠ 0 := abs_ne_zero.mpr hk
    rw [div_mul_div_comm, div_mul_div_comm, show |k| * n * (|k| * n) = (|k| * |k|) * (n * n) by ring,
      this, show k * q i * (k * q j) = (k * k) * (q i * q j) by ring,
      mul_div_mul_left _ _ (mul_ne_zero hk hk)]
  simp only [pow_two, key]

/-! ### Inverse -/

theorem det_assemble (R : Mat3) (p : Vec3) : (assemble R p).det = R.det := by
  rw [det_succ_row _ 3, Fin.sum_univ_four]
  simp [assemble, det_fin_three, Fin.succAbove, submatrix]
  ring

/-- C28: rigid poses can be inverted; the inverse composes to the identity on both sides, and undoes
the transformation of any position. -/
theorem C28_invert (R : Mat3) (hR : IsRotation R) (p : Vec3) :
    ∃ U, invert (assemble R p) = .ok U ∧ U * assemble R p = 1 ∧ assemble R p * U = 1 ∧
      ∀ x, transformPosition U (transformPosition (assemble R p) x) = x := by
  have hd : (assemble R p).det = 1 := by rw [det_assemble, hR.2.2]
  have hu : IsUnit (assemble R p).det := by rw [hd]; exact isUnit_one
  have h1 : (assemble R p)⁻¹ * assemble R p = 1 := nonsing_inv_mul _ hu
  refine ⟨(assemble R p)⁻¹, by rw [invert, if_neg (by rw [hd]; exact one_ne_zero)], h1,
    mul_nonsing_inv _ hu, fun x => ?_⟩
  have hfull : (assemble R p).mulVec ![x 0, x 1, x 2, 1] =
      ![transformPosition (assemble R p) x 0, transformPosition (assemble R p) x 1,
        transformPosition (assemble R p) x 2, 1] := by
    funext i
    fin_cases i <;> simp [transformPosition, assemble, Matrix.mulVec, dotProduct, Fin.sum_univ_four]
  unfold transformPosition at hfull ⊢
  dsimp only at hfull ⊢
  have h2 : (assemble R p)⁻¹.mulVec ((assemble R p).mulVec ![x 0, x 1, x 2, 1]) = ![x 0, x 1, x 2, 1] := by
    rw [Matrix.mulVec_mulVec, h1, Matrix.one_mulVec]
  rw [hfull] at h2
  rw [h2]
  funext i
  fin_cases i <;> rfl

example : ∃ R : Mat3, IsRotation R ∧ R ≠ 1 :=
  ⟨rotationFromRpy ![0, 0, Real.pi], rpy_isRotation _, fun h => by
    have := congrFun (congrFun h 0) 0
    simp [rotationFromRpy] at this
    norm_num at this⟩

/-- C28: rotating a three-dimensional direction keeps its length. -/
theorem C28_rotation_keeps_length (rpy pos d : Vec3) :
    ∑ i, (rotateDirection (fromRpy rpy pos) d i) ^ 2 = ∑ i, (d i) ^ 2 := by
  have hR := rpy_isRotation rpy
  have h : ∀ v : Vec3, ∑ i, (v i) ^ 2 = v ⬝ᵥ v := by
    intro v; simp [dotProduct, pow_two]
  rw [h, h, rotateDirection, fromRpy, rot_assemble, Matrix.dotProduct_mulVec,
    Matrix.vecMul_mulVec, hR.2.1, Matrix.vecMul_one]

/-- C28 fails for two-dimensional directions, which `rotate_direction` accepts: rotated by ninety
degrees about the x axis, `(0, 1)` becomes the zero vector. -/
theorem C28_planar_direction_fails (pos : Vec3) :
    rotateDirection2 (fromRpy ![Real.pi / 2, 0, 0] pos) ![0, 1] = 0 := by
  funext i
  fin_cases i <;> simp [rotateDirection2, fromRpy, assemble, rotationFromRpy]

/-! ### Reading angles back -/

theorem cos_arctan2 {y x : ℝ} (h : x ^ 2 + y ^ 2 = 1) : Real.cos (arctan2 y x) = x := by
  have hn : ‖(⟨x, y⟩ : ℂ)‖ = 1 := by
    rw [Complex.norm_def, Complex.normSq_mk, ← pow_two, ← pow_two, h, Real.sqrt_one]
  have h0 : (⟨x, y⟩ : ℂ) ≠ 0 := by intro h0; rw [h0, norm_zero] at hn; exact zero_ne_one hn
  rw [arctan2, Complex.cos_arg h0, hn, div_one]

theorem sin_arctan2 {y x : ℝ} (h : x ^ 2 + y ^ 2 = 1) : Real.sin (arctan2 y x) = y := by
  have hn : ‖(⟨x, y⟩ : ℂ)‖ = 1 := by
    rw [Complex.norm_def, Complex.normSq_mk, ← pow_two, ← pow_two, h, Real.sqrt_one]
  rw [arctan2, Complex.sin_arg, hn, div_one]

theorem sqrt_col (rpy pos : Vec3) :
    Real.sqrt (fromRpy rpy pos 0 0 ^ 2 + fromRpy rpy pos 1 0 ^ 2) = |Real.cos (rpy 1)| := by
  have h := Real.sin_sq_add_cos_sq (rpy 2)
  rw [← Real.sqrt_sq_eq_abs]
  congr 1
  simp [fromRpy, assemble, rotationFromRpy]
  linear_combination (Real.cos (rpy 1)) ^ 2 * h

/-- C28 away from `pitch = -π/2` (modulo `2π`): the angles read back describe the same rotation, also
in gimbal lock at `pitch = π/2`.  Missing for the full claim: `C28_gimbal_lock_fails`. -/
theorem C28_rpy_roundtrip_partial (rpy pos : Vec3) (h : Real.sin (rpy 1) ≠ -1) :
    rotationFromRpy (rotationRpy (fromRpy rpy pos)) = rot (fromRpy rpy pos) := by
  have e0 := Real.sin_sq_add_cos_sq (rpy 0)
  have e1 := Real.sin_sq_add_cos_sq (rpy 1)
  have e2 := Real.sin_sq_add_cos_sq (rpy 2)
  rw [show rot (fromRpy rpy pos) = rotationFromRpy rpy by rw [fromRpy, rot_assemble]]
  unfold rotationRpy
  dsimp only
  rw [sqrt_col]
  by_cases hc : Real.cos (rpy 1) = 0
  · rw [if_neg (by simp [hc])]
    have hs : Real.sin (rpy 1) = 1 := by
      have : (Real.sin (rpy 1) - 1) * (Real.sin (rpy 1) + 1) = 0 := by rw [hc] at e1; linarith
      rcases mul_eq_zero.mp this with h' | h'
      · linarith
      · exact absurd (by linarith) h
    have t01 : fromRpy rpy pos 0 1 = Real.cos (rpy 2) * Real.sin (rpy 0) - Real.sin (rpy 2) * Real.cos (rpy 0) := by
      simp [fromRpy, assemble, rotationFromRpy, hs]
    have t11 : fromRpy rpy pos 1 1 = Real.sin (rpy 2) * Real.sin (rpy 0) + Real.cos (rpy 2) * Real.cos (rpy 0) := by
      simp [fromRpy, assemble, rotationFromRpy, hs]
    have hn : fromRpy rpy pos 1 1 ^ 2 + fromRpy rpy pos 0 1 ^ 2 = 1 := by
      rw [t01, t11]
      linear_combination (Real.sin (rpy 2) ^ 2 + Real.cos (rpy 2) ^ 2) * e0 + e2
    have hc' := cos_arctan2 hn
    have hs' := sin_arctan2 hn
    have hp : (0.5 : ℝ) * Real.pi = Real.pi / 2 := by ring
    ext i j
    fin_cases i <;> fin_cases j <;>
      simp [rotationFromRpy, hc', hs', hp, hc, hs] <;> (try rw [t01]) <;> (try rw [t11]) <;> ring
  · have habs : |Real.cos (rpy 1)| ≠ 0 := abs_ne_zero.mpr hc
    rw [if_pos habs]
    obtain ⟨σ, hσ, hσ2⟩ : ∃ σ : ℝ, |Real.cos (rpy 1)| = σ * Real.cos (rpy 1) ∧ σ * σ = 1 := by
      rcases abs_choice (Real.cos (rpy 1)) with h' | h'
      · exact ⟨1, by rw [h']; ring, by ring⟩
      · exact ⟨-1, by rw [h']; ring, by ring⟩
    have hσ0 : σ ≠ 0 := by rintro rfl; norm_num at hσ2
    have q : ∀ x : ℝ, Real.cos (rpy 1) * x / |Real.cos (rpy 1)| = σ * x := by
      intro x
      rw [div_eq_iff habs, hσ]
      linear_combination -(Real.cos (rpy 1) * x) * hσ2
    have q' : ∀ x : ℝ, x * Real.cos (rpy 1) / |Real.cos (rpy 1)| = σ * x := by
      intro x; rw [mul_comm x, q]
    have t21 : fromRpy rpy pos 2 1 / |Real.cos (rpy 1)| = σ * Real.sin (rpy 0) := by
      rw [← q]; simp [fromRpy, assemble, rotationFromRpy]
    have t22 : fromRpy rpy pos 2 2 / |Real.cos (rpy 1)| = σ * Real.cos (rpy 0) := by
      rw [← q]; simp [fromRpy, assemble, rotationFromRpy]
    have t10 : fromRpy rpy pos 1 0 / |Real.cos (rpy 1)| = σ * Real.sin (rpy 2) := by
      rw [← q']; simp [fromRpy, assemble, rotationFromRpy]
    have t00 : fromRpy rpy pos 0 0 / |Real.cos (rpy 1)| = σ * Real.cos (rpy 2) := by
      rw [← q']; simp [fromRpy, assemble, rotationFromRpy]
    have t20 : -fromRpy rpy pos 2 0 = Real.sin (rpy 1) := by
      simp [fromRpy, assemble, rotationFromRpy]
    rw [t21, t22, t10, t00, t20]
    have n0 : (σ * Real.cos (rpy 0)) ^ 2 + (σ * Real.sin (rpy 0)) ^ 2 = 1 := by
      linear_combination (Real.cos (rpy 0) ^ 2 + Real.sin (rpy 0) ^ 2) * hσ2 + e0
    have n2 : (σ * Real.cos (rpy 2)) ^ 2 + (σ * Real.sin (rpy 2)) ^ 2 = 1 := by
      linear_combination (Real.cos (rpy 2) ^ 2 + Real.sin (rpy 2) ^ 2) * hσ2 + e2
    have n1 : |Real.cos (rpy 1)| ^ 2 + Real.sin (rpy 1) ^ 2 = 1 := by
      rw [sq_abs]; linarith
    have a0 := cos_arctan2 n0
    have b0 := sin_arctan2 n0
    have a1 := cos_arctan2 n1
    have b1 := sin_arctan2 n1
    have a2 := cos_arctan2 n2
    have b2 := sin_arctan2 n2
    unfold rotationFromRpy
    ext i j
    fin_cases i <;> fin_cases j <;> simp [a0, b0, a1, b1, a2, b2] <;> (try rw [hσ])
    · linear_combination Real.cos (rpy 2) * Real.cos (rpy 1) * hσ2
    · linear_combination (Real.cos (rpy 2) * Real.sin (rpy 1) * Real.sin (rpy 0)
        - Real.sin (rpy 2) * Real.cos (rpy 0)) * hσ2
    · linear_combination (Real.cos (rpy 2) * Real.sin (rpy 1) * Real.cos (rpy 0)
        + Real.sin (rpy 2) * Real.sin (rpy 0)) * hσ2
    · linear_combination Real.sin (rpy 2) * Real.cos (rpy 1) * hσ2
    · linear_combination (Real.sin (rpy 2) * Real.sin (rpy 1) * Real.sin (rpy 0)
        + Real.cos (rpy 2) * Real.cos (rpy 0)) * hσ2
    · linear_combination (Real.sin (rpy 2) * Real.sin (rpy 1) * Real.cos (rpy 0)
        - Real.cos (rpy 2) * Real.sin (rpy 0)) * hσ2
    · linear_combination Real.cos (rpy 1) * Real.sin (rpy 0) * hσ2
    · linear_combination Real.cos (rpy 1) * Real.cos (rpy 0) * hσ2

example : Real.sin ((![1, Real.pi / 2, 2] : Vec3) 1) ≠ -1 ∧ Real.cos ((![1, Real.pi / 2, 2] : Vec3) 1) = 0 := by
  simp; norm_num

example : Real.sin ((![1, -(Real.pi / 2), 2] : Vec3) 1) = -1 := by simp

/-- C28 fails in gimbal lock at `pitch = -π/2`: the pitch read back is `π/2`, a different rotation,
for all rolls, yaws and positions. -/
theorem C28_gimbal_lock_fails (rpy pos : Vec3) (h : Real.sin (rpy 1) = -1) :
    rotationFromRpy (rotationRpy (fromRpy rpy pos)) 2 0 = -1 ∧ rot (fromRpy rpy pos) 2 0 = 1 := by
  have hc : Real.cos (rpy 1) = 0 := by
    have := Real.sin_sq_add_cos_sq (rpy 1)
    rw [h] at this
    exact pow_eq_zero_iff (two_ne_zero) |>.mp (by linarith)
  constructor
  · unfold rotationRpy
    dsimp only
    rw [sqrt_col, if_neg (by simp [hc])]
    have hp : (0.5 : ℝ) * Real.pi = Real.pi / 2 := by ring
    simp [rotationFromRpy, hp]
  · simp [rot, fromRpy, assemble, rotationFromRpy, h]

/-- C28 fails for quaternions: the quaternion of a rotation by ninety degrees about the z axis does
not describe that rotation (its first entry is divided by the scale instead of multiplied). -/
theorem C28_quaternion_roundtrip_fails (pos : Vec3) :
    let T := fromRpy ![0, 0, Real.pi / 2] pos
    rot (fromQuaternion (rotationQuaternion T) pos) 0 0 ≠ rot T 0 0 := by
  intro T
  have t : T 0 0 = 0 ∧ T 1 1 = 0 ∧ T 2 2 = 1 ∧ T 2 1 = 0 ∧ T 1 2 = 0 ∧ T 0 2 = 0 ∧ T 2 0 = 0 ∧
      T 1 0 = 1 ∧ T 0 1 = -1 := by
    simp [T, fromRpy, assemble, rotationFromRpy]
  obtain ⟨t0, t1, t2, t3, t4, t5, t6, t7, t8⟩ := t
  have hq : rotationQuaternion T = ![0.25 / (2 * Real.sqrt 2), 0, 0, 2 / (2 * Real.sqrt 2)] := by
    unfold rotationQuaternion
    simp only [t0, t1, t2, t3, t4, t5, t6, t7, t8]
    rw [if_pos (by norm_num)]
    norm_num
  have hr : rot T 0 0 = 0 := by simp [rot, t0]
  rw [hq, hr, fromQuaternion, rot_assemble]
  have h2 : Real.sqrt 2 ≠ 0 := by positivity
  have h22 : Real.sqrt 2 ^ 2 = 2 := Real.sq_sqrt (by norm_num)
  unfold rotationFromQuaternion
  simp only [if_true]
  have hs : (![0.25 / (2 * Real.sqrt 2), 0, 0, 2 / (2 * Real.sqrt 2)] : Fin 4 → ℝ) 0 ^ 2 +
      (![0.25 / (2 * Real.sqrt 2), 0, 0, 2 / (2 * Real.sqrt 2)] : Fin 4 → ℝ) 1 ^ 2 +
      (![0.25 / (2 * Real.sqrt 2), 0, 0, 2 / (2 * Real.sqrt 2)] : Fin 4 → ℝ) 2 ^ 2 +
      (![0.25 / (2 * Real.sqrt 2), 0, 0, 2 / (2 * Real.sqrt 2)] : Fin 4 → ℝ) 3 ^ 2 = 65 / 128 := by
    simp [div_pow, mul_pow, h22]; norm_num
  rw [hs]
  simp [div_pow, mul_pow, h22]
  norm_num

/-! ### C29 -/

/-- `Direction.From_Spherical`, `transformation.py` 29-63. -/
noncomputable def fromSpherical (azimuth zenith : ℝ) : Vec3 :=
  ![Real.sin zenith * Real.cos azimuth, Real.sin zenith * Real.sin azimuth, Real.cos zenith]

/-- `Direction.to_spherical`, `transformation.py` 65-92: azimuth and zenith. -/
noncomputable def toSpherical (v : Vec3) : ℝ × ℝ := (arctan2 (v 1) (v 0), Real.arccos (v 2))

/-- `Direction.From_Cartesian` of a three-dimensional vector, `transformation.py` 94-123. -/
noncomputable def fromCartesian (v : Vec3) (normalize : Bool) : Except PyErr Vec3 :=
  if normalize then
    let n := Real.sqrt (v 0 ^ 2 + v 1 ^ 2 + v 2 ^ 2)
    if n = 0 then .error .value else .ok fun i => v i / n
  else .ok v

def IsUnitVec (v : Vec3) : Prop := v 0 ^ 2 + v 1 ^ 2 + v 2 ^ 2 = 1

/-- C29: spherical angles always yield unit vectors. -/
theorem C29_unit (azimuth zenith : ℝ) : IsUnitVec (fromSpherical azimuth zenith) := by
  have h1 := Real.sin_sq_add_cos_sq azimuth
  have h2 := Real.sin_sq_add_cos_sq zenith
  simp only [IsUnitVec, fromSpherical]
  simp
  linear_combination (Real.sin zenith) ^ 2 * h1 + h2

/-- C29: every unit vector is recovered from its spherical angles, poles included; the angles are in
`(-π, π]` and `[0, π]`. -/
theorem C29_cartesian_roundtrip (v : Vec3) (hv : IsUnitVec v) :
    fromSpherical (toSpherical v).1 (toSpherical v).2 = v ∧
      -Real.pi < (toSpherical v).1 ∧ (toSpherical v).1 ≤ Real.pi ∧
      0 ≤ (toSpherical v).2 ∧ (toSpherical v).2 ≤ Real.pi := by
  unfold IsUnitVec at hv
  have hz : v 2 ^ 2 ≤ 1 := by nlinarith [sq_nonneg (v 0), sq_nonneg (v 1)]
  have hz1 : -1 ≤ v 2 := by nlinarith
  have hz2 : v 2 ≤ 1 := by nlinarith
  refine ⟨?_, Complex.neg_pi_lt_arg _, Complex.arg_le_pi _, Real.arccos_nonneg _,
    Real.arccos_le_pi _⟩
  have hs : Real.sin (Real.arccos (v 2)) = ‖(⟨v 0, v 1⟩ : ℂ)‖ := by
    rw [Real.sin_arccos, Complex.norm_def, Complex.normSq_mk]
    congr 1; linarith
  unfold fromSpherical toSpherical
  funext i
  by_cases h0 : (⟨v 0, v 1⟩ : ℂ) = 0
  · have hv0 : v 0 = 0 := congrArg Complex.re h0
    have hv1 : v 1 = 0 := congrArg Complex.im h0
    have hs' : Real.sin (Real.arccos (v 2)) = 0 := by rw [hs, h0, norm_zero]
    fin_cases i
    · simp [hs', hv0]
    · simp [hs', hv1]
    · simp [Real.cos_arccos hz1 hz2]
  · have hn : ‖(⟨v 0, v 1⟩ : ℂ)‖ ≠ 0 := norm_ne_zero_iff.mpr h0
    fin_cases i
    · simp only [Fin.mk_zero, Fin.isValue, Fin.zero_eta, cons_val_zero, hs, arctan2, Complex.cos_arg h0]
      field_simp
    · simp only [Fin.mk_one, Fin.isValue, cons_val_one, cons_val_zero, hs, arctan2, Complex.sin_arg]
      field_simp
    · simp [Real.cos_arccos hz1 hz2]

example : IsUnitVec ![3 / 5, 0, -4 / 5] := by simp [IsUnitVec]; norm_num

/-- C29: angles in their principal range are recovered from the direction away from the poles. -/
theorem C29_spherical_roundtrip (azimuth zenith : ℝ) (h1 : 0 < zenith) (h2 : zenith < Real.pi)
    (h3 : -Real.pi < azimuth) (h4 : azimuth ≤ Real.pi) :
    toSpherical (fromSpherical azimuth zenith) = (azimuth, zenith) := by
  have hs := Real.sin_pos_of_pos_of_lt_pi h1 h2
  unfold toSpherical fromSpherical
  refine Prod.ext ?_ ?_
  · simp only [arctan2]
    have : (⟨Real.sin zenith * Real.cos azimuth, Real.sin zenith * Real.sin azimuth⟩ : ℂ) =
        (Real.sin zenith : ℂ) * (Complex.cos azimuth + Complex.sin azimuth * Complex.I) := by
      rw [← Complex.ofReal_cos, ← Complex.ofReal_sin]
      apply Complex.ext <;> simp [Complex.sin_ofReal_re, Complex.cos_ofReal_re]
    simp only [cons_val_one, cons_val_zero]
    rw [this, Complex.arg_mul_cos_add_sin_mul_I hs ⟨h3, h4⟩]
  · simp
    exact Real.arccos_cos h1.le h2.le

/-- C29: at the poles the zenith is still recovered, whatever the azimuth. -/
theorem C29_poles (azimuth : ℝ) :
    (toSpherical (fromSpherical azimuth 0)).2 = 0 ∧
      (toSpherical (fromSpherical azimuth Real.pi)).2 = Real.pi := by
  simp [toSpherical, fromSpherical]

/-- C29: angles outside their principal range still describe the same direction after a round trip. -/
theorem C29_any_angles (azimuth zenith : ℝ) :
    fromSpherical (toSpherical (fromSpherical azimuth zenith)).1
      (toSpherical (fromSpherical azimuth zenith)).2 = fromSpherical azimuth zenith :=
  (C29_cartesian_roundtrip _ (C29_unit azimuth zenith)).1

/-- C29: normalising conversion from cartesian coordinates yields the unit vector of the same
direction, and fails for the zero vector only. -/
theorem C29_from_cartesian (v : Vec3) :
    (v ≠ 0 → ∃ u, fromCartesian v true = .ok u ∧ IsUnitVec u ∧ ∃ k : ℝ, 0 < k ∧ ∀ i, v i = k * u i) ∧
    (v = 0 → fromCartesian v true = .error .value) ∧ fromCartesian v false = .ok v := by
  refine ⟨fun h => ?_, ?_, rfl⟩
  · have hpos : 0 < v 0 ^ 2 + v 1 ^ 2 + v 2 ^ 2 := by
      by_contra hn
      apply h
      have h0 := sq_nonneg (v 0)
      have h1 := sq_nonneg (v 1)
      have h2 := sq_nonneg (v 2)
      funext i
      fin_cases i <;> (apply pow_eq_zero_iff (two_ne_zero) |>.mp; dsimp; linarith)
    have hn : Real.sqrt (v 0 ^ 2 + v 1 ^ 2 + v 2 ^ 2) ≠ 0 := (Real.sqrt_pos.mpr hpos).ne'
    refine ⟨_, by simp only [fromCartesian, if_true]; rw [if_neg hn], ?_, _, Real.sqrt_pos.mpr hpos, ?_⟩
    · simp only [IsUnitVec, div_pow, Real.sq_sqrt hpos.le]
      field_simp
    · intro i; field_simp
  · rintro rfl
    simp [fromCartesian]

end Verif.Core
