import Verif.Core.Pose

/-!
# C49: looking at a target

`Transformation.lookat`, `hermespy/core/transformation.py` 443-491.
-/

namespace Verif.Core

open Matrix

/-- `np.cross`. -/
def cross (a b : Vec3) : Vec3 :=
  ![a 1 * b 2 - a 2 * b 1, a 2 * b 0 - a 0 * b 2, a 0 * b 1 - a 1 * b 0]

def dot3 (a b : Vec3) : ℝ := a 0 * b 0 + a 1 * b 1 + a 2 * b 2

/-- `np.linalg.norm`. -/
noncomputable def norm3 (a : Vec3) : ℝ := Real.sqrt (a 0 ^ 2 + a 1 ^ 2 + a 2 ^ 2)

noncomputable def scale (a : Vec3) (n : ℝ) : Vec3 := fun i => a i / n

/-- Translation part. -/
def translation (T : Mat4) : Vec3 := ![T 0 3, T 1 3, T 2 3]

/-- Replaces the rotation columns, lines 486-489. -/
def setColumns (s u f p : Vec3) : Mat4 :=
  !![s 0, u 0, f 0, p 0; s 1, u 1, f 1, p 1; s 2, u 2, f 2, p 2; 0, 0, 0, 1]

/-- `lookat`, 463-491: the modified transformation and the caller's `up` vector afterwards, which is
normalised in place. -/
noncomputable def lookatPose (T : Mat4) (target up : Vec3) : Mat4 × Vec3 :=
  let up := scale up (norm3 up)
  let pos := translation T
  let f := target - pos
  let fNorm := norm3 f
  let f := if fNorm ≠ 0 then scale f fNorm else pos
  let s := cross up f
  let sNorm := norm3 s
  let s := if sNorm ≠ 0 then scale s sNorm else up
  let u := cross f s
  (setColumns s u f pos, up)

theorem norm3_ne {a : Vec3} (h : a ≠ 0) : 0 < norm3 a := by
  apply Real.sqrt_pos.mpr
  by_contra hn
  apply h
  have h0 := sq_nonneg (a 0)
  have h1 := sq_nonneg (a 1)
  have h2 := sq_nonneg (a 2)
  funext i
  fin_cases i <;> (apply pow_eq_zero_iff (two_ne_zero) |>.mp; dsimp; linarith)

theorem norm3_sq (a : Vec3) : norm3 a ^ 2 = a 0 ^ 2 + a 1 ^ 2 + a 2 ^ 2 :=
  Real.sq_sqrt (by positivity)

theorem scale_unit {a : Vec3} (h : a ≠ 0) : IsUnitVec (scale a (norm3 a)) := by
  have hp := norm3_ne h
  have hs := norm3_sq a
  unfold IsUnitVec scale
  simp only [div_pow]
  rw [← add_div, ← add_div, ← hs]
  exact div_self (by positivity)

theorem cross_scale (a b : Vec3) (m n : ℝ) : cross (scale a m) (scale b n) = scale (cross a b) (m * n) := by
  funext i
  fin_cases i <;> simp [cross, scale] <;> ring

theorem columns_rotation (s f p : Vec3) (hs : IsUnitVec s) (hf : IsUnitVec f) (hsf : dot3 s f = 0) :
    IsRotation (rot (setColumns s (cross f s) f p)) := by
  unfold IsUnitVec at hs hf
  unfold dot3 at hsf
  have key : (rot (setColumns s (cross f s) f p))ᵀ * rot (setColumns s (cross f s) f p) = 1 := by
    ext i j
    fin_cases i <;> fin_cases j <;>
      simp [rot, setColumns, cross, Matrix.mul_apply, Fin.sum_univ_three]
    · linear_combination hs
    · ring
    · linear_combination hsf
    · ring
    · linear_combination (f 0 ^ 2 + f 1 ^ 2 + f 2 ^ 2) * hs + hf
        - (s 0 * f 0 + s 1 * f 1 + s 2 * f 2) * hsf
    · ring
    · linear_combination hsf
    · ring
    · linear_combination hf
  refine isRotation_of _ (mul_eq_one_comm.mp key) ?_
  rw [det_fin_three]
  simp [rot, setColumns, cross]
  linear_combination (f 0 ^ 2 + f 1 ^ 2 + f 2 ^ 2) * hs + hf - (s 0 * f 0 + s 1 * f 1 + s 2 * f 2) * hsf

/-- C49: unless the target is the frame's own position or straight along the up vector, `lookat` yields a
proper rotation at the same position, places the target on the positive local z axis at its distance, and
keeps the local y axis on the side of the up vector with the x axis perpendicular to it.  Missing for
the full claim: the degenerate directions, see `C49_vertical_fails` and `C49_own_position_fails`. -/
theorem C49_lookat_partial (T : Mat4) (target up : Vec3) (hup : up ≠ 0)
    (hpar : cross up (target - translation T) ≠ 0) :
    let L := (lookatPose T target up).1
    IsRotation (rot L) ∧ translation L = translation T ∧
      transformPosition L ![0, 0, norm3 (target - translation T)] = target ∧
      0 < norm3 (target - translation T) ∧
      dot3 (fun i => rot L i 0) up = 0 ∧ 0 < dot3 (fun i => rot L i 1) up := by
  have hd : target - translation T ≠ 0 := by
    intro h
    apply hpar
    rw [h]
    funext i; fin_cases i <;> simp [cross]
  have hdn := norm3_ne hd
  have hun := norm3_ne hup
  set d := target - translation T with hdd
  have hc : cross (scale up (norm3 up)) (scale d (norm3 d)) ≠ 0 := by
    rw [cross_scale]
    intro h
    apply hpar
    funext i
    have hi := congrFun h i
    simp only [scale, Pi.zero_apply, div_eq_zero_iff] at hi
    rcases hi with hi | hi
    · exact hi
    · exact absurd hi (mul_pos hun hdn).ne'
  have hcn := norm3_ne hc
  have hL : (lookatPose T target up).1 = setColumns
      (scale (cross (scale up (norm3 up)) (scale d (norm3 d)))
        (norm3 (cross (scale up (norm3 up)) (scale d (norm3 d)))))
      (cross (scale d (norm3 d)) (scale (cross (scale up (norm3 up)) (scale d (norm3 d)))
        (norm3 (cross (scale up (norm3 up)) (scale d (norm3 d))))))
      (scale d (norm3 d)) (translation T) := by
    unfold lookatPose
    dsimp only
    rw [← hdd, if_pos hdn.ne', if_pos hcn.ne']
  intro L
  have hU := scale_unit hup
  have hF := scale_unit hd
  have hS := scale_unit hc
  generalize hfe : scale d (norm3 d) = f at *
  have hde : ∀ i, d i = norm3 d * f i := by
    intro i; rw [← hfe]; simp only [scale]; field_simp
  have hupe : ∀ i, up i = norm3 up * scale up (norm3 up) i := by
    intro i; simp only [scale]; field_simp
  generalize scale up (norm3 up) = U at *
  generalize hn : norm3 (cross U f) = n at *
  have hn2 : n ^ 2 = (cross U f) 0 ^ 2 + (cross U f) 1 ^ 2 + (cross U f) 2 ^ 2 := by
    rw [← hn]; exact norm3_sq _
  have hsf : dot3 (scale (cross U f) n) f = 0 := by
    simp [dot3, scale, cross]; field_simp; ring
  show IsRotation (rot (lookatPose T target up).1) ∧ translation (lookatPose T target up).1 = _ ∧
    transformPosition (lookatPose T target up).1 _ = _ ∧ _ ∧
    dot3 (fun i => rot (lookatPose T target up).1 i 0) up = 0 ∧
    0 < dot3 (fun i => rot (lookatPose T target up).1 i 1) up
  rw [hL]
  refine ⟨columns_rotation _ _ _ hS hF hsf, ?_, ?_, hdn, ?_, ?_⟩
  · funext i; fin_cases i <;> rfl
  · have ht : ∀ i, target i = translation T i + norm3 d * f i := by
      intro i; rw [← hde i, hdd]; simp
    funext i
    rw [ht i]
    fin_cases i <;> simp [transformPosition, setColumns, Matrix.mulVec, dotProduct, Fin.sum_univ_four] <;> ring
  · simp only [dot3, rot, setColumns, hupe]
    simp [scale, cross]
    field_simp
    ring
  · have : dot3 (fun i => rot (setColumns (scale (cross U f) n) (cross f (scale (cross U f) n)) f
        (translation T)) i 1) up = norm3 up * n := by
      simp only [dot3, rot, setColumns, hupe]
      simp [scale, cross]
      simp [cross] at hn2
      have hn0 : n ≠ 0 := hcn.ne'
      field_simp
      linear_combination -hn2
    rw [this]
    exact mul_pos hun hcn

example : (![0, 1, 0] : Vec3) ≠ 0 ∧
    cross ![0, 1, 0] (![3, 4, 5] - translation (assemble 1 ![1, 1, 1])) ≠ 0 := by
  constructor
  · intro h; simpa using congrFun h 1
  · intro h
    have := congrFun h 0
    simp [cross, translation, assemble] at this
    norm_num at this

/-- C49 fails for targets straight above or below (along the up vector, any distance): the local y axis
vanishes and the pose left behind cannot be inverted. -/
theorem C49_vertical_fails (T : Mat4) (target up : Vec3) (h0 : target ≠ translation T)
    (hpar : cross up (target - translation T) = 0) :
    (rot (lookatPose T target up).1).det = 0 ∧ ∀ i, rot (lookatPose T target up).1 i 1 = 0 := by
  have hd : ∀ m n : ℝ, cross (scale up m) (scale (target - translation T) n) = 0 := by
    intro m n
    rw [cross_scale, hpar]
    funext i; simp [scale]
  have hz : norm3 (0 : Vec3) = 0 := by simp [norm3]
  have hn : norm3 (target - translation T) ≠ 0 := (norm3_ne (sub_ne_zero.mpr h0)).ne'
  unfold lookatPose
  dsimp only
  rw [if_pos hn, hd, hz, if_neg (by simp)]
  have hcz' : cross (scale (target - translation T) (norm3 (target - translation T)))
      (scale up (norm3 up)) = 0 := by
    funext i
    have h0 := congrFun (hd (norm3 up) (norm3 (target - translation T))) 0
    have h1 := congrFun (hd (norm3 up) (norm3 (target - translation T))) 1
    have h2 := congrFun (hd (norm3 up) (norm3 (target - translation T))) 2
    simp [cross] at h0 h1 h2
    fin_cases i <;> simp [cross] <;> linarith
  rw [hcz', det_fin_three]
  refine ⟨by simp [rot, setColumns], fun i => ?_⟩
  fin_cases i <;> simp [rot, setColumns]

example : (![0, 7, 0] : Vec3) ≠ translation (assemble 1 ![0, 0, 0]) ∧
    cross ![0, 1, 0] (![0, 7, 0] - translation (assemble 1 ![0, 0, 0])) = 0 := by
  constructor
  · intro h; simpa [translation, assemble] using congrFun h 1
  · funext i; fin_cases i <;> simp [cross, translation, assemble]

/-- C49 fails for a frame looking at its own position: the local z axis becomes the position vector, not a
unit vector unless the frame happens to be at unit distance from the origin. -/
theorem C49_own_position_fails (T : Mat4) (up : Vec3) (h : norm3 (translation T) ≠ 1) :
    ¬ IsRotation (rot (lookatPose T (translation T) up).1) := by
  intro hR
  have hcol : ∀ i, rot (lookatPose T (translation T) up).1 i 2 = translation T i := by
    intro i
    unfold lookatPose
    dsimp only
    have h0 : norm3 (0 : Vec3) = 0 := by simp [norm3]
    fin_cases i <;> simp [rot, setColumns, h0]
  have h22 := congrFun (congrFun hR.2.1 2) 2
  simp only [Matrix.mul_apply, Fin.sum_univ_three, Matrix.transpose_apply, hcol, Matrix.one_apply_eq] at h22
  apply h
  unfold norm3
  rw [show translation T 0 ^ 2 + translation T 1 ^ 2 + translation T 2 ^ 2 = 1 by rw [← h22]; ring,
    Real.sqrt_one]

/-- C49: `lookat` normalises the caller's up vector in place. -/
theorem C49_argument_modified_fails (T : Mat4) (target : Vec3) :
    (lookatPose T target ![0, 2, 0]).2 = ![0, 1, 0] := by
  have : Real.sqrt ((2 : ℝ) ^ 2) = 2 := Real.sqrt_sq (by norm_num)
  funext i
  fin_cases i <;> simp [lookatPose, scale, norm3, this]

end Verif.Core
