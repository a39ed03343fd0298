import Verif.Core.Lookat
import Mathlib.Analysis.SpecialFunctions.Trigonometric.Bounds
import Mathlib.Analysis.Real.Pi.Bounds
import Mathlib.Analysis.SpecialFunctions.Pow.Real

/-!
# C79: antenna elements

`hermespy/core/antennas.py` 33-622.  Floating point numbers are idealised as reals.  The constant `pi` of
the code is a parameter `ϖ`, since it is a rounded number: the theorems on the documented characteristics
take `ϖ = π`, the one on the lower pole of the dipole holds for every constant below `π`.
-/

namespace Verif.Core.Ant

open Matrix Verif.Core

/-- `AntennaMode`, `core/antennas.py` 33-43. -/
inductive Mode where
  | tx
  | rx
  | duplex
  deriving DecidableEq, Repr

/-- The antenna models with their parameters, `core/antennas.py` 392-622. -/
inductive Element where
  | ideal
  | linear (slant : ℝ)
  | patch
  | dipole

/-- `local_characteristics`: `IdealAntenna` 435-436, `LinearAntenna` 509-510, `PatchAntenna` 556-560,
`Dipole` 610-614.  Divisions are those of Python numbers. -/
noncomputable def Element.field (ϖ : ℝ) (azimuth elevation : ℝ) : Element → Except PyErr (ℝ × ℝ)
  | .ideal => .ok (2 ^ (-(1 / 2) : ℝ), 2 ^ (-(1 / 2) : ℝ))
  | .linear s => .ok (Real.cos s, Real.sin s)
  | .patch =>
    let vertical := 0.1 + 0.9 * Real.exp (-1.315 * azimuth ^ 2)
    .ok (max 0.1 (vertical * Real.cos elevation ^ 2), 0)
  | .dipole =>
    if elevation = 0 then .ok (0, 0)
    else if Real.sin elevation = 0 then .error .zeroDivision
    else .ok (Real.cos (0.5 * ϖ * Real.cos elevation) / Real.sin elevation, 0)

/-- Unit vectors of azimuth, lines 164-169. -/
noncomputable def azimuthUnit (azimuth : ℝ) : Vec3 := ![-Real.sin azimuth, Real.cos azimuth, 0]

/-- Unit vectors of zenith, lines 172-187. -/
noncomputable def zenithUnit (azimuth zenith : ℝ) : Vec3 :=
  ![Real.cos zenith * Real.cos azimuth, Real.cos zenith * Real.sin azimuth, -Real.sin zenith]

/-- `Antenna.global_characteristics`, `core/antennas.py` 138-210, of an antenna with the given forwards and
backwards transformations. -/
noncomputable def Element.globalField (ϖ : ℝ) (e : Element) (F B : Mat4) (d : Vec3) :
    Except PyErr (ℝ × ℝ) :=
  let l := rotateDirection B d
  match e.field ϖ (toSpherical l).1 (toSpherical l).2 with
  | .error x => .error x
  | .ok c =>
    let ag := azimuthUnit (toSpherical d).1
    let al := azimuthUnit (toSpherical l).1
    let zg := zenithUnit (toSpherical d).1 (toSpherical d).2
    let zl := zenithUnit (toSpherical l).1 (toSpherical l).2
    let zt := (rot F).mulVec zl
    let at' := (rot F).mulVec al
    .ok (dot3 zg zt * c.1 + dot3 zg at' * c.2, dot3 ag zt * c.1 + dot3 ag at' * c.2)

/-! ### Rigid transformations -/

theorem assemble_mul (R S : Mat3) (p q : Vec3) :
    assemble R p * assemble S q = assemble (R * S) (R.mulVec q + p) := by
  ext i j
  fin_cases i <;> fin_cases j <;>
    simp [assemble, Matrix.mul_apply, Fin.sum_univ_four, Fin.sum_univ_three, Matrix.mulVec, dotProduct]

theorem assemble_one : assemble 1 0 = 1 := by
  ext i j
  fin_cases i <;> fin_cases j <;> simp [assemble]

theorem assemble_inv {R : Mat3} (hR : IsRotation R) (p : Vec3) :
    (assemble R p)⁻¹ = assemble Rᵀ (-(Rᵀ.mulVec p)) := by
  refine Matrix.inv_eq_left_inv ?_
  rw [assemble_mul, hR.2.1, add_neg_cancel, assemble_one]

theorem invert_assemble {R : Mat3} (hR : IsRotation R) (p : Vec3) :
    invert (assemble R p) = .ok (assemble Rᵀ (-(Rᵀ.mulVec p))) := by
  rw [invert, if_neg (by rw [det_assemble, hR.2.2]; exact one_ne_zero), assemble_inv hR]

theorem dot3_eq (a b : Vec3) : dot3 a b = a ⬝ᵥ b := by
  simp [dot3, dotProduct, Fin.sum_univ_three]

theorem dot3_rotate {R : Mat3} (hR : IsRotation R) (a b : Vec3) :
    dot3 (R.mulVec a) (R.mulVec b) = dot3 a b := by
  rw [dot3_eq, dot3_eq, Matrix.dotProduct_mulVec, Matrix.vecMul_mulVec, hR.2.1, Matrix.vecMul_one]

theorem isUnitVec_iff (v : Vec3) : IsUnitVec v ↔ dot3 v v = 1 := by
  simp only [IsUnitVec, dot3]
  constructor <;> intro h <;> linarith

theorem isRotation_transpose {R : Mat3} (hR : IsRotation R) : IsRotation Rᵀ := by
  refine ⟨?_, ?_, ?_⟩
  · rw [transpose_transpose]; exact hR.2.1
  · rw [transpose_transpose]; exact hR.1
  · rw [det_transpose]; exact hR.2.2

theorem unit_rotate {R : Mat3} (hR : IsRotation R) {d : Vec3} (hd : IsUnitVec d) :
    IsUnitVec (R.mulVec d) := by
  rw [isUnitVec_iff] at hd ⊢
  rw [dot3_rotate hR, hd]

/-! ### Frames of direction -/

/-- The unit vectors of zenith and azimuth and the direction are an orthonormal frame. -/
theorem frame_orthonormal (a z : ℝ) :
    dot3 (zenithUnit a z) (zenithUnit a z) = 1 ∧ dot3 (azimuthUnit a) (azimuthUnit a) = 1 ∧
      dot3 (zenithUnit a z) (azimuthUnit a) = 0 ∧ dot3 (zenithUnit a z) (fromSpherical a z) = 0 ∧
      dot3 (azimuthUnit a) (fromSpherical a z) = 0 := by
  have ha := Real.sin_sq_add_cos_sq a
  have hz := Real.sin_sq_add_cos_sq z
  refine ⟨?_, ?_, ?_, ?_, ?_⟩ <;>
    simp only [dot3, zenithUnit, azimuthUnit, fromSpherical, Matrix.cons_val]
  · linear_combination Real.cos z ^ 2 * ha + hz
  · linear_combination ha
  · ring
  · linear_combination (Real.cos z * Real.sin z) * ha
  · ring

/-- Every vector is the sum of its components along the frame. -/
theorem frame_complete (a z : ℝ) (v : Vec3) (i : Fin 3) :
    v i = dot3 (zenithUnit a z) v * zenithUnit a z i + dot3 (azimuthUnit a) v * azimuthUnit a i +
      dot3 (fromSpherical a z) v * fromSpherical a z i := by
  have ha := Real.sin_sq_add_cos_sq a
  have hz := Real.sin_sq_add_cos_sq z
  fin_cases i <;>
    simp [dot3, zenithUnit, azimuthUnit, fromSpherical]
  · linear_combination (-(v 0) * Real.cos a ^ 2 - v 1 * Real.cos a * Real.sin a) * hz - v 0 * ha
  · linear_combination (-(v 0) * Real.cos a * Real.sin a - v 1 * Real.sin a ^ 2) * hz - v 1 * ha
  · linear_combination (-(v 2)) * hz

/-- C79: an antenna at any position and in any orientation, asked for any direction, answers with the field
of its model for that direction as seen from the antenna, turned with the antenna.  The field vector in space,
spanned by the unit vectors of zenith and azimuth, is the rotated local one.  So the gain is the gain of the
model in the local direction. -/
theorem C79_rotation (ϖ : ℝ) (e : Element) {R : Mat3} (hR : IsRotation R) (p : Vec3) {d : Vec3}
    (hd : IsUnitVec d) (az ze : ℝ) (haz : toSpherical (Rᵀ.mulVec d) = (az, ze)) (c : ℝ × ℝ)
    (hc : e.field ϖ az ze = .ok c) :
    ∃ B g, invert (assemble R p) = .ok B ∧ e.globalField ϖ (assemble R p) B d = .ok g ∧
      (∀ i, g.1 * zenithUnit (toSpherical d).1 (toSpherical d).2 i +
          g.2 * azimuthUnit (toSpherical d).1 i =
        R.mulVec (fun j => c.1 * zenithUnit az ze j + c.2 * azimuthUnit az j) i) ∧
      g.1 ^ 2 + g.2 ^ 2 = c.1 ^ 2 + c.2 ^ 2 := by
  have hl : rotateDirection (assemble Rᵀ (-(Rᵀ.mulVec p))) d = Rᵀ.mulVec d := by
    rw [rotateDirection, rot_assemble]
  set ag := (toSpherical d).1 with hag
  set zg := (toSpherical d).2 with hzg
  have hlu : IsUnitVec (Rᵀ.mulVec d) := unit_rotate (isRotation_transpose hR) hd
  have hls := (C29_cartesian_roundtrip _ hlu).1
  rw [haz] at hls
  have hgs : fromSpherical ag zg = d := (C29_cartesian_roundtrip _ hd).1
  have hRl : R.mulVec (fromSpherical az ze) = d := by
    rw [hls, mulVec_mulVec, hR.1, one_mulVec]
  obtain ⟨f1, f2, f3, f4, f5⟩ := frame_orthonormal az ze
  obtain ⟨k1, k2, k3, k4, k5⟩ := frame_orthonormal ag zg
  set v : Vec3 := R.mulVec (fun j => c.1 * zenithUnit az ze j + c.2 * azimuthUnit az j) with hv
  have hlin : ∀ u : Vec3, dot3 u v = dot3 u (R.mulVec (zenithUnit az ze)) * c.1 +
      dot3 u (R.mulVec (azimuthUnit az)) * c.2 := by
    intro u
    have : v = c.1 • R.mulVec (zenithUnit az ze) + c.2 • R.mulVec (azimuthUnit az) := by
      rw [hv, ← mulVec_smul, ← mulVec_smul, ← mulVec_add]
      rfl
    rw [this]
    simp only [dot3, Pi.add_apply, Pi.smul_apply, smul_eq_mul]
    ring
  have hperp : dot3 (fromSpherical ag zg) v = 0 := by
    rw [hgs, hlin, ← hRl, dot3_rotate hR, dot3_rotate hR]
    have e1 : dot3 (fromSpherical az ze) (zenithUnit az ze) = 0 := by
      rw [dot3_eq, dotProduct_comm, ← dot3_eq]; exact f4
    have e2 : dot3 (fromSpherical az ze) (azimuthUnit az) = 0 := by
      rw [dot3_eq, dotProduct_comm, ← dot3_eq]; exact f5
    rw [e1, e2]; ring
  have hfield : ∀ i, dot3 (zenithUnit ag zg) v * zenithUnit ag zg i +
      dot3 (azimuthUnit ag) v * azimuthUnit ag i = v i := by
    intro i
    have := frame_complete ag zg v i
    rw [hperp] at this
    rw [this]; ring
  refine ⟨_, (dot3 (zenithUnit ag zg) v, dot3 (azimuthUnit ag) v), invert_assemble hR p, ?_, hfield, ?_⟩
  · unfold Element.globalField
    simp only [hl, haz, hc, rot_assemble, ← hag, ← hzg]
    rw [← hlin, ← hlin]
  · have hvv : dot3 v v = c.1 ^ 2 + c.2 ^ 2 := by
      rw [hv, dot3_rotate hR]
      have : dot3 (fun j => c.1 * zenithUnit az ze j + c.2 * azimuthUnit az j)
          (fun j => c.1 * zenithUnit az ze j + c.2 * azimuthUnit az j) =
          c.1 ^ 2 * dot3 (zenithUnit az ze) (zenithUnit az ze) +
            2 * c.1 * c.2 * dot3 (zenithUnit az ze) (azimuthUnit az) +
            c.2 ^ 2 * dot3 (azimuthUnit az) (azimuthUnit az) := by
        simp only [dot3]; ring
      rw [this, f1, f2, f3]; ring
    have hvf : dot3 v v = dot3 (zenithUnit ag zg) v * dot3 (zenithUnit ag zg) v +
        dot3 (azimuthUnit ag) v * dot3 (azimuthUnit ag) v := by
      conv_lhs => rw [dot3]
      rw [← hfield 0, ← hfield 1, ← hfield 2]
      generalize dot3 (zenithUnit ag zg) v = x
      generalize dot3 (azimuthUnit ag) v = y
      simp only [dot3] at k1 k2 k3
      linear_combination x ^ 2 * k1 + y ^ 2 * k2 + 2 * x * y * k3
    rw [← hvv, hvf]; ring

/-- A dipole laid on its side by a roll of ninety degrees, asked for the direction of the x axis. -/
example : ∃ c, Element.dipole.field Real.pi
      (toSpherical ((rotationFromRpy ![Real.pi / 2, 0, 0])ᵀ.mulVec ![1, 0, 0])).1
      (toSpherical ((rotationFromRpy ![Real.pi / 2, 0, 0])ᵀ.mulVec ![1, 0, 0])).2 = .ok c ∧ c.1 = 1 := by
  have h : (rotationFromRpy ![Real.pi / 2, 0, 0])ᵀ.mulVec ![1, 0, 0] = ![1, 0, 0] := by
    funext i
    fin_cases i <;> simp [rotationFromRpy, Matrix.mulVec, dotProduct, Fin.sum_univ_three]
  rw [h]
  have hs : (toSpherical ![1, 0, 0]).2 = Real.pi / 2 := by simp [toSpherical]
  rw [hs, Element.field, if_neg (by positivity), if_neg (by simp)]
  exact ⟨_, rfl, by simp⟩

/-- C79: ideal and linearly polarised antennas answer every direction with unit gain, in any pose. -/
theorem C79_unit_gain (ϖ : ℝ) (e : Element) (he : e = .ideal ∨ ∃ s, e = .linear s) {R : Mat3}
    (hR : IsRotation R) (p : Vec3) {d : Vec3} (hd : IsUnitVec d) :
    ∃ B g, invert (assemble R p) = .ok B ∧ e.globalField ϖ (assemble R p) B d = .ok g ∧
      g.1 ^ 2 + g.2 ^ 2 = 1 := by
  obtain ⟨c, hc, h1⟩ : ∃ c : ℝ × ℝ, e.field ϖ (toSpherical (Rᵀ.mulVec d)).1
      (toSpherical (Rᵀ.mulVec d)).2 = .ok c ∧ c.1 ^ 2 + c.2 ^ 2 = 1 := by
    rcases he with rfl | ⟨s, rfl⟩
    · refine ⟨_, rfl, ?_⟩
      have : ((2 : ℝ) ^ (-(1 / 2) : ℝ)) ^ 2 = 1 / 2 := by
        rw [← Real.rpow_natCast, ← Real.rpow_mul (by norm_num)]
        norm_num
      simp only [this]; norm_num
    · exact ⟨_, rfl, by dsimp only; linarith [Real.sin_sq_add_cos_sq s]⟩
  obtain ⟨B, g, h2, h3, _, h4⟩ := C79_rotation ϖ e hR p hd _ _ rfl c hc
  exact ⟨B, g, h2, h3, h4.trans h1⟩

/-- C79: the polarization of linear antennas. In any pose the field is the one of the documentation, turned with the
antenna: its vertical part is the cosine of the slant, its horizontal part the sine; without a slant the field of an
upright antenna is vertical, with a slant of a right angle horizontal. -/
theorem C79_linear (ϖ s : ℝ) {R : Mat3} (hR : IsRotation R) (p : Vec3) {d : Vec3} (hd : IsUnitVec d) (az ze : ℝ)
    (haz : toSpherical (Rᵀ.mulVec d) = (az, ze)) :
    ∃ B g, invert (assemble R p) = .ok B ∧ (Element.linear s).globalField ϖ (assemble R p) B d = .ok g ∧
      ∀ i, g.1 * zenithUnit (toSpherical d).1 (toSpherical d).2 i + g.2 * azimuthUnit (toSpherical d).1 i =
        R.mulVec (fun j => Real.cos s * zenithUnit az ze j + Real.sin s * azimuthUnit az j) i := by
  obtain ⟨B, g, h1, h2, h3, _⟩ := C79_rotation ϖ (.linear s) hR p hd az ze haz _ rfl
  exact ⟨B, g, h1, h2, h3⟩

/-- C79: the exact half-wave dipole.  In any pose its gain towards a direction off its lower pole is the
magnitude of `cos(π/2 cos θ) / sin θ` with the angle `θ` from its axis; it vanishes on the axis, never exceeds
one, and is one exactly across the axis. -/
theorem C79_dipole {R : Mat3} (hR : IsRotation R) (p : Vec3) {d : Vec3} (hd : IsUnitVec d)
    (hpole : (Rᵀ.mulVec d) 2 ≠ -1) :
    ∃ B g, invert (assemble R p) = .ok B ∧
      Element.dipole.globalField Real.pi (assemble R p) B d = .ok g ∧
      (∀ θ, 0 < θ → θ < Real.pi → Real.cos θ = (Rᵀ.mulVec d) 2 →
        g.1 ^ 2 + g.2 ^ 2 = (Real.cos (Real.pi / 2 * Real.cos θ) / Real.sin θ) ^ 2) ∧
      ((Rᵀ.mulVec d) 2 = 1 → g = (0, 0)) ∧ g.1 ^ 2 + g.2 ^ 2 ≤ 1 ∧
      (g.1 ^ 2 + g.2 ^ 2 = 1 ↔ (Rᵀ.mulVec d) 2 = 0) := by
  set l := Rᵀ.mulVec d with hl
  have hlu : IsUnitVec l := unit_rotate (isRotation_transpose hR) hd
  have hz : l 2 ^ 2 ≤ 1 := by
    unfold IsUnitVec at hlu; nlinarith [sq_nonneg (l 0), sq_nonneg (l 1)]
  have hz1 : -1 ≤ l 2 := by nlinarith
  have hz2 : l 2 ≤ 1 := by nlinarith
  have hcos : Real.cos (Real.arccos (l 2)) = l 2 := Real.cos_arccos hz1 hz2
  by_cases h1 : l 2 = 1
  · have hf : Element.dipole.field Real.pi (toSpherical l).1 (toSpherical l).2 = .ok (0, 0) := by
      simp [Element.field, toSpherical, h1]
    obtain ⟨B, g, h2, h3, _, h4⟩ := C79_rotation Real.pi .dipole hR p hd _ _ rfl _ hf
    have hg : g.1 ^ 2 + g.2 ^ 2 = 0 := by rw [h4]; norm_num
    have g1 : g.1 = 0 := by nlinarith [sq_nonneg g.1, sq_nonneg g.2]
    have g2 : g.2 = 0 := by nlinarith [sq_nonneg g.1, sq_nonneg g.2]
    refine ⟨B, g, h2, h3, fun θ t1 t2 t3 => ?_, fun _ => Prod.ext g1 g2, by rw [hg]; norm_num, ?_⟩
    · exfalso
      rw [h1] at t3
      have := (Real.cos_eq_one_iff_of_lt_of_lt (by linarith) (by linarith)).mp t3
      linarith
    · rw [hg, h1]; norm_num
  · have hlt : l 2 < 1 := lt_of_le_of_ne hz2 h1
    have hgt : -1 < l 2 := lt_of_le_of_ne hz1 (Ne.symm hpole)
    have he : Real.arccos (l 2) ≠ 0 := by
      intro h; rw [h, Real.cos_zero] at hcos; exact h1 hcos.symm
    have hs : 0 < Real.sin (Real.arccos (l 2)) := by
      rw [Real.sin_arccos]; apply Real.sqrt_pos.mpr; nlinarith
    have hf : Element.dipole.field Real.pi (toSpherical l).1 (toSpherical l).2 =
        .ok (Real.cos (Real.pi / 2 * l 2) / Real.sin (Real.arccos (l 2)), 0) := by
      have : (0.5 : ℝ) * Real.pi * l 2 = Real.pi / 2 * l 2 := by ring
      have h2 : (toSpherical l).2 = Real.arccos (l 2) := rfl
      rw [h2, Element.field, if_neg he, if_neg hs.ne', hcos, this]
    obtain ⟨B, g, h2, h3, _, h4⟩ := C79_rotation Real.pi .dipole hR p hd _ _ rfl _ hf
    have hsq : Real.sin (Real.arccos (l 2)) ^ 2 = 1 - l 2 ^ 2 := by
      rw [Real.sin_arccos, Real.sq_sqrt (by nlinarith)]
    have hg : g.1 ^ 2 + g.2 ^ 2 = Real.cos (Real.pi / 2 * l 2) ^ 2 / (1 - l 2 ^ 2) := by
      rw [h4, div_pow, hsq]; ring
    have hpos : 0 < 1 - l 2 ^ 2 := by nlinarith
    -- Jordan's inequality
    have habs : |l 2| < 1 := abs_lt.mpr ⟨hgt, hlt⟩
    have hj : |l 2| ≤ Real.sin (Real.pi / 2 * |l 2|) := by
      have := Real.mul_le_sin (x := Real.pi / 2 * |l 2|) (by positivity)
        (by nlinarith [Real.pi_pos])
      have e : 2 / Real.pi * (Real.pi / 2 * |l 2|) = |l 2| := by field_simp
      rwa [e] at this
    have hsin : Real.sin (Real.pi / 2 * l 2) ^ 2 = Real.sin (Real.pi / 2 * |l 2|) ^ 2 := by
      rcases abs_choice (l 2) with h | h <;> rw [h]
      rw [mul_neg, Real.sin_neg]; ring
    have hcs := Real.sin_sq_add_cos_sq (Real.pi / 2 * l 2)
    have hle : Real.cos (Real.pi / 2 * l 2) ^ 2 ≤ 1 - l 2 ^ 2 := by
      have h5 : l 2 ^ 2 ≤ Real.sin (Real.pi / 2 * |l 2|) ^ 2 := by
        rw [← sq_abs (l 2)]; exact pow_le_pow_left₀ (abs_nonneg _) hj 2
      linarith
    refine ⟨B, g, h2, h3, fun θ t1 t2 t3 => ?_, fun h => absurd h h1, ?_, ?_⟩
    · have hst : Real.sin θ ^ 2 = 1 - l 2 ^ 2 := by
        have := Real.sin_sq_add_cos_sq θ
        rw [t3] at this; linarith
      rw [hg, div_pow, hst, t3]
    · rw [hg]; exact (div_le_one hpos).mpr hle
    · rw [hg, div_eq_one_iff_eq hpos.ne']
      constructor
      · intro h
        by_contra hne
        have hp' : 0 < |l 2| := abs_pos.mpr hne
        have hjs : |l 2| < Real.sin (Real.pi / 2 * |l 2|) := by
          have := Real.mul_lt_sin (x := Real.pi / 2 * |l 2|) (by positivity)
            (by nlinarith [Real.pi_pos])
          have e : 2 / Real.pi * (Real.pi / 2 * |l 2|) = |l 2| := by field_simp
          rwa [e] at this
        have h5 : l 2 ^ 2 < Real.sin (Real.pi / 2 * |l 2|) ^ 2 := by
          rw [← sq_abs (l 2)]; exact pow_lt_pow_left₀ hjs (abs_nonneg _) two_ne_zero
        linarith
      · intro h; rw [h]; simp

example : IsRotation (1 : Mat3) ∧ IsUnitVec ![3 / 5, 0, 4 / 5] ∧
    ((1 : Mat3)ᵀ.mulVec ![3 / 5, 0, 4 / 5]) 2 ≠ -1 := by
  refine ⟨⟨by simp, by simp, by simp⟩, by simp [IsUnitVec]; norm_num, by simp; norm_num⟩

/-- C79 fails at the lower pole of the dipole.  `pi` is rounded down and `arccos(-1)` is that constant, which
is not caught by the comparison with zero: for every constant below `π` the gain straight down is at least a
half, however close the constant is, although the characteristic vanishes on the axis and the gain straight up
is zero. -/
theorem C79_dipole_pole_fails (ϖ : ℝ) (h1 : 3 < ϖ) (h2 : ϖ < Real.pi) (azimuth : ℝ) :
    (∃ g, Element.dipole.field ϖ azimuth ϖ = .ok (g, 0) ∧ 1 / 2 ≤ g) ∧
      Element.dipole.field ϖ azimuth 0 = .ok (0, 0) := by
  have hpi := Real.pi_lt_d2
  have hs : 0 < Real.sin ϖ := Real.sin_pos_of_pos_of_lt_pi (by linarith) h2
  refine ⟨⟨_, by rw [Element.field, if_neg (by linarith), if_neg hs.ne'], ?_⟩,
    by simp [Element.field]⟩
  rw [le_div_iff₀ hs]
  have hs2 : Real.sin ϖ = 2 * Real.sin (ϖ / 2) * Real.cos (ϖ / 2) := by
    rw [← Real.sin_two_mul]; congr 1; ring
  have hc0 : 0 ≤ Real.cos (ϖ / 2) := Real.cos_nonneg_of_neg_pi_div_two_le_of_le (by linarith) (by linarith)
  have hcn : Real.cos ϖ ≤ 0 := Real.cos_nonpos_of_pi_div_two_le_of_le (by linarith) (by linarith)
  have hmono : Real.cos (ϖ / 2) ≤ Real.cos (0.5 * ϖ * Real.cos ϖ) := by
    rw [← Real.cos_neg (0.5 * ϖ * Real.cos ϖ)]
    have hle1 := Real.neg_one_le_cos ϖ
    refine Real.cos_le_cos_of_nonneg_of_le_pi ?_ (by linarith) ?_
    · nlinarith
    · nlinarith
  have : Real.sin (ϖ / 2) ≤ 1 := Real.sin_le_one _
  rw [hs2]
  nlinarith

/-- The constant of the code, rounded to thirty-two bits here. -/
example : (3 : ℝ) < 3.14159265 ∧ (3.14159265 : ℝ) < Real.pi := ⟨by norm_num, by
  have := Real.pi_gt_d20; linarith⟩

/-- C79: the gain of a patch antenna is between a tenth and one, in any pose. -/
theorem C79_patch_partial (ϖ : ℝ) {R : Mat3} (hR : IsRotation R) (p : Vec3) {d : Vec3}
    (hd : IsUnitVec d) :
    ∃ B g, invert (assemble R p) = .ok B ∧ Element.patch.globalField ϖ (assemble R p) B d = .ok g ∧
      0.1 ^ 2 ≤ g.1 ^ 2 + g.2 ^ 2 ∧ g.1 ^ 2 + g.2 ^ 2 ≤ 1 := by
  obtain ⟨B, g, h2, h3, _, h4⟩ := C79_rotation ϖ .patch hR p hd (toSpherical (Rᵀ.mulVec d)).1
    (toSpherical (Rᵀ.mulVec d)).2 rfl _ rfl
  refine ⟨B, g, h2, h3, ?_, ?_⟩ <;> rw [h4] <;> dsimp only
  · have := le_max_left (0.1 : ℝ) ((0.1 + 0.9 * Real.exp (-1.315 * (toSpherical (Rᵀ.mulVec d)).1 ^ 2)) *
      Real.cos (toSpherical (Rᵀ.mulVec d)).2 ^ 2)
    nlinarith
  · have hexp : Real.exp (-1.315 * (toSpherical (Rᵀ.mulVec d)).1 ^ 2) ≤ 1 := by
      rw [Real.exp_le_one_iff]; nlinarith [sq_nonneg (toSpherical (Rᵀ.mulVec d)).1]
    have hexp0 := (Real.exp_pos (-1.315 * (toSpherical (Rᵀ.mulVec d)).1 ^ 2)).le
    have hc : Real.cos (toSpherical (Rᵀ.mulVec d)).2 ^ 2 ≤ 1 := Real.cos_sq_le_one _
    have hc0 : 0 ≤ Real.cos (toSpherical (Rᵀ.mulVec d)).2 ^ 2 := sq_nonneg _
    have h5 : max (0.1 : ℝ) ((0.1 + 0.9 * Real.exp (-1.315 * (toSpherical (Rᵀ.mulVec d)).1 ^ 2)) *
      Real.cos (toSpherical (Rᵀ.mulVec d)).2 ^ 2) ≤ 1 := by
      refine max_le (by norm_num) ?_
      nlinarith
    have h6 : (0 : ℝ) ≤ max (0.1 : ℝ) ((0.1 + 0.9 * Real.exp (-1.315 * (toSpherical (Rᵀ.mulVec d)).1 ^ 2)) *
      Real.cos (toSpherical (Rᵀ.mulVec d)).2 ^ 2) := le_trans (by norm_num) (le_max_left _ _)
    nlinarith

/-- The point drawn for an angle by `Antenna.plot_gain`, `core/antennas.py` 343-351: the gain times this
direction. -/
noncomputable def plotDirection (azimuth elevation : ℝ) : Vec3 :=
  ![Real.cos azimuth * Real.cos elevation, Real.sin azimuth * Real.cos elevation, Real.sin elevation]

theorem plotDirection_spherical (azimuth elevation : ℝ) :
    plotDirection azimuth elevation = fromSpherical azimuth (Real.pi / 2 - elevation) := by
  simp only [plotDirection, fromSpherical, Real.sin_pi_div_two_sub, Real.cos_pi_div_two_sub]
  funext i; fin_cases i <;> simp <;> ring

/-- An antenna which is not moved answers with its local characteristics. -/
theorem upright (ϖ : ℝ) (e : Element) {d : Vec3} (c : ℝ × ℝ)
    (hc : e.field ϖ (toSpherical d).1 (toSpherical d).2 = .ok c) :
    e.globalField ϖ 1 1 d = .ok c := by
  have h1 : rot (1 : Mat4) = 1 := by
    ext i j; fin_cases i <;> fin_cases j <;> simp [rot]
  have hl : rotateDirection 1 d = d := by rw [rotateDirection, h1, one_mulVec]
  obtain ⟨k1, k2, k3, _, _⟩ := frame_orthonormal (toSpherical d).1 (toSpherical d).2
  have k3' : dot3 (azimuthUnit (toSpherical d).1) (zenithUnit (toSpherical d).1 (toSpherical d).2) = 0 := by
    rw [dot3_eq, dotProduct_comm, ← dot3_eq]; exact k3
  unfold Element.globalField
  simp only [hl, hc, h1, one_mulVec, k1, k2, k3, k3']
  simp

/-- C79 fails for the angles of patch antennas and dipoles in plots.  The models are asked for azimuth and
zenith when signals propagate, but for azimuth and elevation when they are drawn: along the x axis an upright
patch antenna is drawn with gain one and answers with a tenth, an upright dipole is drawn with gain zero and
answers with gain one. -/
theorem C79_plot_fails :
    let x : Vec3 := plotDirection 0 0
    x = ![1, 0, 0] ∧
      Element.patch.field Real.pi 0 0 = .ok (1, 0) ∧ Element.patch.globalField Real.pi 1 1 x = .ok (0.1, 0) ∧
      Element.dipole.field Real.pi 0 0 = .ok (0, 0) ∧ Element.dipole.globalField Real.pi 1 1 x = .ok (1, 0) := by
  have hx : plotDirection 0 0 = ![1, 0, 0] := by
    funext i; fin_cases i <;> simp [plotDirection]
  have hs : toSpherical ![1, 0, 0] = (0, Real.pi / 2) := by
    simp [toSpherical, arctan2]
    exact Complex.arg_one
  intro x
  refine ⟨hx, ?_, ?_, by simp [Element.field], ?_⟩
  · simp [Element.field]; norm_num
  · change Element.globalField Real.pi .patch 1 1 (plotDirection 0 0) = _
    rw [hx]
    refine upright _ _ _ ?_
    rw [hs]
    simp [Element.field]
    norm_num
  · change Element.globalField Real.pi .dipole 1 1 (plotDirection 0 0) = _
    rw [hx]
    refine upright _ _ _ ?_
    rw [hs, Element.field, if_neg (by positivity), if_neg (by simp)]
    simp

/-- C79 fails for patch antennas around their axis: straight up the gain is one, but at any angle off the
axis, however small, there are directions in which it is less than two tenths. -/
theorem C79_patch_fails (ε : ℝ) (h0 : 0 < ε) (h1 : ε < Real.pi) :
    Element.patch.globalField Real.pi 1 1 ![0, 0, 1] = .ok (1, 0) ∧
      ∃ d g, IsUnitVec d ∧ dot3 d ![0, 0, 1] = Real.cos ε ∧
        Element.patch.globalField Real.pi 1 1 d = .ok (g, 0) ∧ g < 0.2 := by
  constructor
  · refine upright _ _ _ ?_
    simp [Element.field, toSpherical, arctan2]
    have : (⟨0, 0⟩ : ℂ) = 0 := rfl
    rw [this, Complex.arg_zero]
    norm_num
  · have hsph := C29_spherical_roundtrip Real.pi ε h0 h1 (by linarith [Real.pi_pos]) le_rfl
    refine ⟨fromSpherical Real.pi ε, _, C29_unit _ _, by simp [dot3, fromSpherical],
      upright _ _ _ (by rw [hsph, Element.field]), ?_⟩
    have hexp : Real.exp (-1.315 * Real.pi ^ 2) < 0.1 := by
      have h3 := Real.pi_gt_three
      have : Real.exp (-1.315 * Real.pi ^ 2) < Real.exp (-9) := by
        apply Real.exp_lt_exp.mpr; nlinarith
      have h9 : Real.exp (-9) < 0.1 := by
        rw [Real.exp_neg]
        have := Real.add_one_lt_exp (x := 9) (by norm_num)
        rw [inv_lt_comm₀ (Real.exp_pos _) (by norm_num)]
        norm_num at this ⊢
        linarith
      linarith
    have hc : Real.cos ε ^ 2 ≤ 1 := Real.cos_sq_le_one _
    have hc0 : 0 ≤ Real.cos ε ^ 2 := sq_nonneg _
    have he := Real.exp_pos (-1.315 * Real.pi ^ 2)
    refine max_lt (by norm_num) ?_
    nlinarith

example : (0 : ℝ) < 0.001 ∧ (0.001 : ℝ) < Real.pi := ⟨by norm_num, by linarith [Real.pi_gt_three]⟩

end Verif.Core.Ant
