import Verif.Core.AntennaArrays
import Mathlib.Algebra.Order.Chebyshev
import Mathlib.Analysis.CStarAlgebra.Matrix

/-!
# C82: focus points and the conventional beamformer

`hermespy/beamforming/beamformer.py` and `hermespy/beamforming/conventional.py`.  Samples of a block are a
matrix of streams and samples over the complex numbers, arrays are those of C80.
-/

namespace Verif.Beam

open Matrix Verif.Core Verif.Core.Ant

/-- Reference frames of focus points: the strings `"local"`, `"global"`, or any other. -/
inductive Reference where
  | local
  | global
  | other
  deriving DecidableEq

/-- `SphericalFocus`, `beamforming/beamformer.py` 73-137, of two angles, and `CoordinateFocus`, 140-207, which
keeps the direction of its coordinates only. -/
inductive Focus where
  | spherical (azimuth zenith : ℝ)
  | coordinates (direction : Vec3) (reference : Reference)

/-- `CoordinateFocus.__init__`, lines 146-165, of three coordinates. -/
noncomputable def coordinateFocus (x : Vec3) (r : Reference) : Except PyErr Focus :=
  match fromCartesian x true with
  | .error e => .error e
  | .ok d => .ok (.coordinates d r)

/-- `spherical_angles`, lines 126-128 and 183-194; `a` is the state of the device's antennas. -/
noncomputable def Focus.angles (a : Array) : Focus → Except PyErr (ℝ × ℝ)
  | .spherical az ze => .ok (az, ze)
  | .coordinates d .local => .ok (toSpherical d)
  | .coordinates d .global =>
    match invert a.forwards with
    | .error e => .error e
    | .ok B => .ok (toSpherical (rotateDirection B d))
  | .coordinates _ .other => .error .value

/-- Positions of antennas relative to the array but in the axes of space, `beamforming/conventional.py` 80-83
and 105-108. -/
def offsets (a : Array) (m : Mode) : List Vec3 :=
  (a.select m).map fun x => translation (a.forwards * x.pose) - translation a.forwards

/-- Weights of an angle, lines 88-90 and 109-111. -/
noncomputable def steering (a : Array) (f : ℝ) (m : Mode) (angle : ℝ × ℝ) : List ℂ :=
  (offsets a m).map fun q => phase (-(f / light * dot3 q (fromSpherical angle.1 angle.2)))

/-- A list of coefficients multiplied with as many streams; other numbers are a `ValueError` of `matmul`. -/
def fit (l : List ℂ) (n : Nat) : Except PyErr (Fin n → ℂ) :=
  if h : l.length = n then .ok fun i => l[i.val]'(h ▸ i.isLt) else .error .value

/-- `ConventionalBeamformer._decode`, lines 119-129, with `_codebook`, 54-92.  Without receiving antennas the
empty list of positions cannot be subtracted from (`ValueError`). -/
noncomputable def convDecode (a : Array) (f : ℝ) {n t : Nat} (X : Matrix (Fin n) (Fin t) ℂ)
    (angles : List (ℝ × ℝ)) : Except PyErr (List (Fin t → ℂ)) :=
  if (a.select .rx).length = 0 then .error .value
  else if (a.select .rx).length ≠ n then .error .value
  else collect (fun an =>
    match fit (steering a f .rx an) n with
    | .error e => .error e
    | .ok w => .ok fun k => ∑ i, w i / ((a.select .rx).length : ℂ) * X i k) angles

/-- `ConventionalBeamformer._encode`, lines 94-117, of a single stream: one row per transmitting antenna. -/
noncomputable def convEncode (a : Array) (f : ℝ) {t : Nat} (s : Fin t → ℂ) (angle : ℝ × ℝ) :
    Except PyErr (List (Fin t → ℂ)) :=
  if (a.select .tx).length = 0 then .error .value
  else .ok ((steering a f .tx angle).map fun w => fun k => w * s k)

/-- What a wave from direction `u` of space leaves at the receiving antennas: each antenna is reached earlier
by its offset towards the source. -/
noncomputable def arriving (a : Array) (f : ℝ) (u : Vec3) {n t : Nat} (h : (a.select .rx).length = n)
    (s : Fin t → ℂ) : Matrix (Fin n) (Fin t) ℂ := fun i k =>
  phase (f / light * dot3 (translation (a.forwards * ((a.select .rx)[i.val]'(h ▸ i.isLt)).pose) -
    translation a.forwards) u) * s k

/-- What a receiver in direction `u` of space and far away observes of the streams fed into the transmitting
antennas. -/
noncomputable def radiated (a : Array) (f : ℝ) (u : Vec3) {t : Nat} (rows : List (Fin t → ℂ)) (k : Fin t) : ℂ :=
  ((List.zipWith (fun q row => phase (f / light * dot3 q u) * row k) (offsets a .tx) rows)).sum

/-! ### Focus points -/

theorem invert_rigid {R : Mat3} (hR : IsRotation R) (p : Vec3) :
    invert (assemble R p) = .ok (assemble Rᵀ (-(Rᵀ.mulVec p))) := invert_assemble hR p

/-- C82: focus points by coordinates stand for the direction of these coordinates: in the array's frame if
they are local, and the direction of space seen from the array if they are global; only the origin is
refused. -/
theorem C82_focus (a : Array) {R : Mat3} (hR : IsRotation R) (p : Vec3) (hF : a.forwards = assemble R p)
    (x : Vec3) :
    (x = 0 → ∀ r, coordinateFocus x r = .error .value) ∧
    (x ≠ 0 → ∀ r, r ≠ .other → ∃ fo an, ∃ k : ℝ, coordinateFocus x r = .ok fo ∧ fo.angles a = .ok an ∧ 0 < k ∧
      (r = .local → x = k • fromSpherical an.1 an.2) ∧
      (r = .global → x = k • R.mulVec (fromSpherical an.1 an.2))) := by
  constructor
  · intro h r
    simp only [coordinateFocus, (C29_from_cartesian x).2.1 h]
  · intro h r hr
    obtain ⟨u, hu, hunit, k, hk, hx⟩ := (C29_from_cartesian x).1 h
    have hxu : x = k • u := by funext i; simpa using hx i
    cases r with
    | other => exact absurd rfl hr
    | «local» =>
      refine ⟨.coordinates u .local, toSpherical u, k, by simp only [coordinateFocus, hu], rfl, hk, ?_, by simp⟩
      intro _
      rw [(C29_cartesian_roundtrip u hunit).1]; exact hxu
    | global =>
      refine ⟨.coordinates u .global, toSpherical (rotateDirection (assemble Rᵀ (-(Rᵀ.mulVec p))) u), k,
        by simp only [coordinateFocus, hu], by simp only [Focus.angles, hF, invert_rigid hR], hk, by simp, ?_⟩
      intro _
      have hru : rotateDirection (assemble Rᵀ (-(Rᵀ.mulVec p))) u = Rᵀ.mulVec u := by
        rw [rotateDirection, rot_assemble]
      rw [hru, (C29_cartesian_roundtrip _ (unit_rotate (isRotation_transpose hR) hunit)).1, mulVec_mulVec, hR.1,
        one_mulVec]
      exact hxu

example : IsRotation (rotationFromRpy ![1, 2, 3]) ∧ (![1, 0, 0] : Vec3) ≠ 0 :=
  ⟨rpy_isRotation _, fun h => by simpa using congrFun h 0⟩

/-- C82 fails for global coordinates focused by an array away from the origin: the direction is taken from
the origin, not from the array, so it is wrong unless the array is on the line through origin and point. -/
theorem C82_point_fails (a : Array) (p x : Vec3) (hF : a.forwards = assemble 1 p)
    (h : ∀ k : ℝ, p ≠ k • x) (hx : x ≠ 0) :
    ∃ fo an, coordinateFocus x .global = .ok fo ∧ fo.angles a = .ok an ∧
      ∀ k : ℝ, x - p ≠ k • fromSpherical an.1 an.2 := by
  have hone : IsRotation (1 : Mat3) := ⟨by simp, by simp, by simp⟩
  obtain ⟨fo, an, k, h1, h2, hk, -, h3⟩ := (C82_focus a hone p hF x).2 hx .global (by simp)
  refine ⟨fo, an, h1, h2, fun c hc => ?_⟩
  have h3 := h3 rfl
  rw [one_mulVec] at h3
  have : fromSpherical an.1 an.2 = k⁻¹ • x := by
    rw [h3, smul_smul, inv_mul_cancel₀ hk.ne', one_smul]
  rw [this] at hc
  apply h (1 - c * k⁻¹)
  rw [sub_smul, one_smul, ← smul_smul, ← hc]
  abel

example : ∀ k : ℝ, (![0, 5, 0] : Vec3) ≠ k • ![1, 0, 0] := by
  intro k h
  have := congrFun h 1
  simp at this

/-! ### Reception -/

theorem fit_steering (a : Array) (f : ℝ) (m : Mode) (an : ℝ × ℝ) {n : Nat} (h : (a.select m).length = n) :
    fit (steering a f m an) n = .ok fun i =>
      phase (-(f / light * dot3 (translation (a.forwards * ((a.select m)[i.val]'(h ▸ i.isLt)).pose) -
        translation a.forwards) (fromSpherical an.1 an.2))) := by
  have hl : (steering a f m an).length = n := by simp [steering, offsets, h]
  rw [fit, dif_pos hl]
  congr 1
  funext i
  simp [steering, offsets]

theorem collect_map {α β : Type} (f : α → Except PyErr β) (g : α → β) : ∀ l : List α,
    (∀ x ∈ l, f x = .ok (g x)) → collect f l = .ok (l.map g)
  | [], _ => rfl
  | x :: xs, h => by
    rw [collect, h x (by simp), collect_map f g xs fun y hy => h y (by simp [hy])]
    rfl

/-- Mean of the received streams, aligned for a direction. -/
noncomputable def aligned (a : Array) (f : ℝ) {n t : Nat} (h : (a.select .rx).length = n)
    (X : Matrix (Fin n) (Fin t) ℂ) (u : Vec3) (k : Fin t) : ℂ :=
  ∑ i : Fin n, phase (-(f / light * dot3 (translation (a.forwards * ((a.select .rx)[i.val]'(h ▸ i.isLt)).pose) -
        translation a.forwards) u)) / (n : ℂ) * X i k

theorem convDecode_eq (a : Array) (f : ℝ) {n t : Nat} (h : (a.select .rx).length = n) (hn : n ≠ 0)
    (X : Matrix (Fin n) (Fin t) ℂ) (angles : List (ℝ × ℝ)) :
    convDecode a f X angles = .ok (angles.map fun an => aligned a f h X (fromSpherical an.1 an.2)) := by
  rw [convDecode, if_neg (by omega), if_neg (by omega)]
  refine collect_map _ _ _ fun an _ => ?_
  rw [fit_steering a f .rx an h]
  refine congrArg Except.ok ?_
  funext k
  simp only [aligned, h]

theorem phase_zero : phase 0 = 1 := by simp [phase]

theorem phase_cancel (x : ℝ) : phase (-x) * phase x = 1 := by
  rw [← phase_add, neg_add_cancel, phase_zero]

/-- C82: waves from the direction focused, an angle of space, are returned unchanged, wherever the array is
and however its antennas are arranged; one signal per angle. -/
theorem C82_receive (a : Array) (f : ℝ) {n t : Nat} (h : (a.select .rx).length = n) (hn : n ≠ 0)
    (s : Fin t → ℂ) (az ze : ℝ) :
    convDecode a f (arriving a f (fromSpherical az ze) h s) [(az, ze)] = .ok [s] := by
  rw [convDecode_eq a f h hn]
  refine congrArg Except.ok ?_
  simp only [List.map_cons, List.map_nil, List.cons.injEq, and_true]
  funext k
  simp only [aligned, arriving]
  have hnc : (n : ℂ) ≠ 0 := by exact_mod_cast hn
  have : ∀ i : Fin n, phase (-(f / light * dot3 (translation (a.forwards * ((a.select .rx)[i.val]'(h ▸ i.isLt)).pose) -
      translation a.forwards) (fromSpherical az ze))) / (n : ℂ) *
      (phase (f / light * dot3 (translation (a.forwards * ((a.select .rx)[i.val]'(h ▸ i.isLt)).pose) -
      translation a.forwards) (fromSpherical az ze)) * s k) = s k / n := by
    intro i
    rw [← mul_assoc, div_mul_eq_mul_div, phase_cancel]
    ring
  rw [Finset.sum_congr rfl fun i _ => this i]
  simp
  field_simp

/-- C82: waves from any other direction are not amplified, they only change by a common factor of at most
one; and independent streams are averaged: the output has at most the mean power of the streams. -/
theorem C82_gain (a : Array) (f : ℝ) {n t : Nat} (h : (a.select .rx).length = n) (hn : n ≠ 0)
    (s : Fin t → ℂ) (X : Matrix (Fin n) (Fin t) ℂ) (u : Vec3) (an : ℝ × ℝ) :
    (∃ g : ℂ, ‖g‖ ≤ 1 ∧ convDecode a f (arriving a f u h s) [an] = .ok [fun k => g * s k]) ∧
    ∃ y, convDecode a f X [an] = .ok [y] ∧ ∀ k, ‖y k‖ ^ 2 ≤ (∑ i, ‖X i k‖ ^ 2) / n := by
  have hnr : (0 : ℝ) < n := by exact_mod_cast Nat.pos_of_ne_zero hn
  constructor
  · refine ⟨∑ i : Fin n, phase (-(f / light * dot3 (translation (a.forwards * ((a.select .rx)[i.val]'(h ▸ i.isLt)).pose) -
      translation a.forwards) (fromSpherical an.1 an.2))) / (n : ℂ) *
      phase (f / light * dot3 (translation (a.forwards * ((a.select .rx)[i.val]'(h ▸ i.isLt)).pose) -
      translation a.forwards) u), ?_, ?_⟩
    · refine (norm_sum_le _ _).trans ?_
      have : ∀ i : Fin n, ‖phase (-(f / light * dot3 (translation (a.forwards * ((a.select .rx)[i.val]'(h ▸ i.isLt)).pose) -
          translation a.forwards) (fromSpherical an.1 an.2))) / (n : ℂ) *
          phase (f / light * dot3 (translation (a.forwards * ((a.select .rx)[i.val]'(h ▸ i.isLt)).pose) -
          translation a.forwards) u)‖ = 1 / n := by
        intro i
        rw [norm_mul, norm_div, phase_norm, phase_norm, mul_one, Complex.norm_natCast]
      rw [Finset.sum_congr rfl fun i _ => this i]
      simp
      rw [mul_inv_cancel₀ hnr.ne']
    · rw [convDecode_eq a f h hn]
      refine congrArg Except.ok ?_
      simp only [List.map_cons, List.map_nil, List.cons.injEq, and_true]
      funext k
      simp only [aligned, arriving, Finset.sum_mul]
      refine Finset.sum_congr rfl fun i _ => ?_
      ring
  · refine ⟨_, convDecode_eq a f h hn X [an], fun k => ?_⟩
    simp only [aligned]
    have h1 : ‖∑ i : Fin n, phase (-(f / light * dot3 (translation (a.forwards * ((a.select .rx)[i.val]'(h ▸ i.isLt)).pose) -
        translation a.forwards) (fromSpherical an.1 an.2))) / (n : ℂ) * X i k‖ ≤ ∑ i, ‖X i k‖ / n := by
      refine (norm_sum_le _ _).trans (Finset.sum_le_sum fun i _ => ?_)
      rw [norm_mul, norm_div, phase_norm, Complex.norm_natCast]
      exact le_of_eq (by ring)
    have h2 : (∑ i, ‖X i k‖ / (n : ℝ)) ^ 2 ≤ (∑ i, ‖X i k‖ ^ 2) / n := by
      rw [← Finset.sum_div, div_pow, div_le_div_iff₀ (by positivity) hnr]
      have := sq_sum_le_card_mul_sum_sq (s := (Finset.univ : Finset (Fin n))) (f := fun i => ‖X i k‖)
      simp only [Finset.card_univ, Fintype.card_fin] at this
      calc (∑ i, ‖X i k‖) ^ 2 * (n : ℝ) ≤ ((n : ℝ) * ∑ i, ‖X i k‖ ^ 2) * n :=
            mul_le_mul_of_nonneg_right this hnr.le
        _ = _ := by ring
    exact (pow_le_pow_left₀ (norm_nonneg _) h1 2).trans h2

/-- C82: numbers of streams other than the receiving antennas are refused. -/
theorem C82_streams (a : Array) (f : ℝ) {n t : Nat} (X : Matrix (Fin n) (Fin t) ℂ) (angles : List (ℝ × ℝ)) :
    ((a.select .rx).length ≠ n ∨ n = 0 → convDecode a f X angles = .error .value) ∧
    ((a.select .rx).length = n ∧ n ≠ 0 → ∃ out, convDecode a f X angles = .ok out ∧
      out.length = angles.length) := by
  refine ⟨fun h => ?_, fun ⟨h, hn⟩ => ⟨_, convDecode_eq a f h hn X angles, by simp⟩⟩
  unfold convDecode
  split
  · rfl
  · rename_i h0
    rw [if_pos (by omega)]

theorem global_offset {R : Mat3} (p : Vec3) {T : Mat4} (hT : Rigid T) :
    translation (assemble R p * T) - translation (assemble R p) = R.mulVec (translation T) := by
  obtain ⟨S, q, _, rfl⟩ := hT
  rw [assemble_mul, translation_of, translation_of, translation_of]
  abel

/-- C82 for angles in the frame of the array, which focus points are: an array which is moved but not turned
returns waves from the direction focused, with the phase response the array itself reports for these angles,
unchanged.  Missing for the full claim: `C82_turned_fails`. -/
theorem C82_local_partial (a : Array) (p : Vec3) (hF : a.forwards = assemble 1 p)
    (hx : ∀ x ∈ a.antennas, Rigid x.pose) (f : ℝ) {n t : Nat} (h : (a.select .rx).length = n) (hn : n ≠ 0)
    (s : Fin t → ℂ) (az ze : ℝ) (r : List ℂ) (hr : a.sphericalPhase f az ze .rx = .ok r) (hl : r.length = n) :
    convDecode a f (fun (i : Fin n) k => r[i.val]'(hl ▸ i.isLt) * s k) [(az, ze)] = .ok [s] := by
  have hone : IsRotation (1 : Mat3) := ⟨by simp, by simp, by simp⟩
  have : (fun (i : Fin n) k => r[i.val]'(hl ▸ i.isLt) * s k) = arriving a f (fromSpherical az ze) h s := by
    have ht := topology_eq a ⟨1, p, hone, hF⟩ hx .rx
    simp only [Array.sphericalPhase, ht, Except.map, List.map_map] at hr
    cases hr
    funext i k
    simp only [arriving, List.getElem_map, Function.comp]
    have hm : (a.select .rx)[i.val]'(h ▸ i.isLt) ∈ a.antennas := ((mem_select a .rx _).mp (List.getElem_mem _)).1
    rw [hF, global_offset p (hx _ hm), one_mulVec]
    congr 2
    simp only [dot3, fromSpherical, Matrix.cons_val]
    ring
  rw [this]
  exact C82_receive a f h hn s az ze

/-- Two antennas half a wavelength apart on the x axis of an array. -/
noncomputable def pair (F : Mat4) (f : ℝ) : Array :=
  ⟨F, [⟨.duplex, .ideal, 1⟩, ⟨.duplex, .ideal, assemble 1 ![light / (2 * f), 0, 0]⟩]⟩

/-- Turned by ninety degrees around the z axis. -/
def turn : Mat3 := !![0, -1, 0; 1, 0, 0; 0, 0, 1]

theorem turn_isRotation : IsRotation turn := by
  refine ⟨?_, ?_, ?_⟩
  · ext i j; fin_cases i <;> fin_cases j <;> simp [turn, Matrix.mul_apply, Fin.sum_univ_three]
  · ext i j; fin_cases i <;> fin_cases j <;> simp [turn, Matrix.mul_apply, Fin.sum_univ_three]
  · simp [turn, Matrix.det_fin_three]

theorem phase_half : phase (1 / 2) = -1 := by
  rw [phase]
  rw [show (2 * (Real.pi : ℂ) * ((1 / 2 : ℝ) : ℂ) * Complex.I) = Real.pi * Complex.I by push_cast; ring]
  exact Complex.exp_pi_mul_I

theorem pair_topology (F : Mat4) (hF : Rigid F) (f : ℝ) :
    (pair F f).topology .rx = .ok [0, ![light / (2 * f), 0, 0]] := by
  have hone : IsRotation (1 : Mat3) := ⟨by simp, by simp, by simp⟩
  rw [topology_eq (pair F f) hF ?_ .rx]
  · have h1 : translation (1 : Mat4) = 0 := by rw [← assemble_one, translation_of]
    simp [pair, Array.select, h1, translation_of]
  · intro x hx
    simp only [pair, List.mem_cons, List.not_mem_nil, or_false] at hx
    rcases hx with rfl | rfl
    · exact rigid_one
    · exact ⟨_, _, hone, rfl⟩

/-- C82 fails for arrays which are turned, at every place and frequency: focus points are angles in the frame
of the array, but the beamformer takes them for angles in space.  Turned by ninety degrees, a pair of antennas
half a wavelength apart cancels the wave from the very direction focused, given with the phase response of the
array, completely. -/
theorem C82_turned_fails (p : Vec3) (f : ℝ) (hf : 0 < f) {t : Nat} (s : Fin t → ℂ) :
    let a := pair (assemble turn p) f
    ∃ r : List ℂ, ∃ hl : r.length = 2, a.sphericalPhase f 0 (Real.pi / 2) .rx = .ok r ∧
      convDecode a f (fun (i : Fin 2) k => r[i.val]'(by omega) * s k) [(0, Real.pi / 2)] = .ok [0] := by
  intro a
  have hl : (0 : ℝ) < light := by norm_num [light]
  refine ⟨[1, -1], rfl, ?_, ?_⟩
  · simp only [Array.sphericalPhase, a, pair_topology _ ⟨_, _, turn_isRotation, rfl⟩, Except.map, List.map_cons,
      List.map_nil]
    have e1 : dot3 ![Real.cos 0 * Real.sin (Real.pi / 2), Real.sin 0 * Real.sin (Real.pi / 2),
        Real.cos (Real.pi / 2)] 0 = 0 := by simp [dot3]
    have e2 : f * dot3 ![Real.cos 0 * Real.sin (Real.pi / 2), Real.sin 0 * Real.sin (Real.pi / 2),
        Real.cos (Real.pi / 2)] ![light / (2 * f), 0, 0] / light = 1 / 2 := by
      simp [dot3]; field_simp
    rw [e1, e2, mul_zero, zero_div, phase_zero, phase_half]
  · have hs : (a.select .rx).length = 2 := by simp [a, pair, Array.select]
    refine (convDecode_eq a f hs (by norm_num) _ _).trans ?_
    refine congrArg Except.ok ?_
    simp only [List.map_cons, List.map_nil, List.cons.injEq, and_true]
    funext k
    have hone : IsRotation (1 : Mat3) := ⟨by simp, by simp, by simp⟩
    have h1 : translation (1 : Mat4) = 0 := by rw [← assemble_one, translation_of]
    simp only [aligned, Fin.sum_univ_two]
    have g0 : translation (a.forwards * ((a.select .rx)[0]'(by omega)).pose) - translation a.forwards = 0 := by
      simp [a, pair, Array.select]
    have g1 : translation (a.forwards * ((a.select .rx)[1]'(by omega)).pose) - translation a.forwards =
        ![0, light / (2 * f), 0] := by
      simp only [a, pair, Array.select]
      simp only [List.filter_cons, List.filter_nil]
      simp only [ne_eq, reduceCtorEq, not_false_eq_true, decide_true, if_true, List.getElem_cons_succ,
        List.getElem_cons_zero]
      rw [global_offset p ⟨_, _, hone, rfl⟩, translation_of]
      funext i; fin_cases i <;> simp [turn, Matrix.mulVec, dotProduct, Fin.sum_univ_three]
    simp only [Fin.val_zero, Fin.val_one, g0, g1]
    have d0 : dot3 (0 : Vec3) (fromSpherical 0 (Real.pi / 2)) = 0 := by simp [dot3]
    have d1 : dot3 ![0, light / (2 * f), 0] (fromSpherical 0 (Real.pi / 2)) = 0 := by
      simp [dot3, fromSpherical]
    rw [d0, d1]
    simp

/-- C82 fails for focus points in global coordinates on turned arrays: the wave from the direction of the
point is cancelled completely, for arrays at the origin, where directions and coordinates agree. -/
theorem C82_global_fails (f : ℝ) (hf : 0 < f) (y : ℝ) (hy : 0 < y) {t : Nat} (s : Fin t → ℂ) :
    let a := pair (assemble turn 0) f
    ∃ (h : (a.select .rx).length = 2) (fo : Focus) (an : ℝ × ℝ),
      coordinateFocus ![0, y, 0] .global = .ok fo ∧ fo.angles a = .ok an ∧
      convDecode a f (arriving a f ![0, 1, 0] h s) [an] = .ok [0] := by
  intro a
  have hl : (0 : ℝ) < light := by norm_num [light]
  have hs : (a.select .rx).length = 2 := by simp [a, pair, Array.select]
  obtain ⟨fo, an, k, h1, h2, hk, -, h3⟩ := (C82_focus a turn_isRotation 0 rfl ![0, y, 0]).2
    (fun h => hy.ne' (by simpa using congrFun h 1)) .global (by simp)
  refine ⟨hs, fo, an, h1, h2, ?_⟩
  have h3 := h3 rfl
  have hd : ∀ v, dot3 ![0, v, 0] (fromSpherical an.1 an.2) = 0 := by
    intro v
    have e0 := congrFun h3 0
    simp [turn, dotProduct, Fin.sum_univ_three, hk.ne'] at e0
    simp [dot3, e0]
  rw [convDecode_eq a f hs (by norm_num)]
  refine congrArg Except.ok ?_
  simp only [List.map_cons, List.map_nil, List.cons.injEq, and_true]
  funext k
  have hone : IsRotation (1 : Mat3) := ⟨by simp, by simp, by simp⟩
  simp only [aligned, Fin.sum_univ_two, arriving]
  have g0 : translation (a.forwards * ((a.select .rx)[0]'(by omega)).pose) - translation a.forwards = 0 := by
    simp [a, pair, Array.select]
  have g1 : translation (a.forwards * ((a.select .rx)[1]'(by omega)).pose) - translation a.forwards =
      ![0, light / (2 * f), 0] := by
    simp only [a, pair, Array.select]
    simp only [List.filter_cons, List.filter_nil]
    simp only [ne_eq, reduceCtorEq, not_false_eq_true, decide_true, if_true, List.getElem_cons_succ,
      List.getElem_cons_zero]
    rw [global_offset 0 ⟨_, _, hone, rfl⟩, translation_of]
    funext i; fin_cases i <;> simp [turn, Matrix.mulVec, dotProduct, Fin.sum_univ_three]
  simp only [Fin.val_zero, Fin.val_one, g0, g1, hd]
  have d0 : ∀ v, dot3 (0 : Vec3) v = 0 := by intro v; simp [dot3]
  have d1 : f / light * dot3 ![0, light / (2 * f), 0] ![0, 1, 0] = 1 / 2 := by
    simp [dot3]; field_simp
  rw [d0, d0, d1, phase_half]
  simp [phase_zero]

/-! ### Transmission -/

/-- C82: the streams fed into the antennas have the signal's power each, they add up coherently in the
direction focused, an angle of space, and in no direction to more. -/
theorem C82_transmit (a : Array) (f : ℝ) (hn : (a.select .tx).length ≠ 0) {t : Nat} (s : Fin t → ℂ)
    (az ze : ℝ) :
    ∃ rows, convEncode a f s (az, ze) = .ok rows ∧ rows.length = (a.select .tx).length ∧
      (∀ row ∈ rows, ∀ k, ‖row k‖ = ‖s k‖) ∧
      (∀ k, radiated a f (fromSpherical az ze) rows k = (a.select .tx).length * s k) ∧
      ∀ u k, ‖radiated a f u rows k‖ ≤ (a.select .tx).length * ‖s k‖ := by
  refine ⟨_, by rw [convEncode, if_neg hn], by simp [steering, offsets], ?_, ?_, ?_⟩
  · intro row hrow k
    obtain ⟨w, hw, rfl⟩ := List.mem_map.mp hrow
    obtain ⟨q, _, rfl⟩ := List.mem_map.mp hw
    rw [norm_mul, phase_norm, one_mul]
  · intro k
    have : (a.select .tx).length = (offsets a .tx).length := by simp [offsets]
    rw [this, radiated, steering]
    generalize offsets a .tx = l
    induction l with
    | nil => simp
    | cons q l ih =>
      simp only [List.map_cons, List.zipWith_cons_cons, List.sum_cons, List.length_cons] at ih ⊢
      rw [ih, ← mul_assoc, mul_comm (phase _) (phase _), phase_cancel]
      push_cast; ring
  · intro u k
    have : (a.select .tx).length = (offsets a .tx).length := by simp [offsets]
    rw [this, radiated, steering]
    generalize offsets a .tx = l
    induction l with
    | nil => simp
    | cons q l ih =>
      simp only [List.map_cons, List.zipWith_cons_cons, List.sum_cons, List.length_cons] at ih ⊢
      refine (norm_add_le _ _).trans ?_
      rw [norm_mul, norm_mul, phase_norm, phase_norm]
      push_cast
      linarith

example (f : ℝ) : ((pair (assemble turn 0) f).select .tx).length ≠ 0 := by simp [pair, Array.select]

/-! ### Beamformers as objects -/

/-- Implementations, by the number of focus points they require: `conventional.py` 42-52, `capon.py` 44-46,
`nullsteeringbeamformer.py` 38-48. -/
inductive Kind where
  | conventional
  | capon (loading : ℝ)
  | nullSteering

def Kind.points : Kind → Nat
  | .conventional => 1
  | .capon _ => 1
  | .nullSteering => 3

/-- Focus points of probes, an array of two or of three dimensions whose last holds azimuth and zenith. -/
inductive Points where
  | two (l : List (ℝ × ℝ))
  | three (l : List (List (ℝ × ℝ)))

/-- A beamformer with its focus points, `beamformer.py` 213-222 and 397-407. -/
structure Beamformer where
  kind : Kind
  transmitFocus : List Focus
  receiveFocus : List Focus
  probe : List (List (ℝ × ℝ))

/-- `TransmitBeamformer.__init__` and `ReceiveBeamformer.__init__`. -/
noncomputable def Beamformer.create (k : Kind) : Beamformer :=
  ⟨k, List.replicate k.points (.spherical 0 0), List.replicate k.points (.spherical 0 0),
    [List.replicate k.points (0, 0)]⟩

/-- `transmit_focus` setter, lines 251-263. -/
def Beamformer.setTransmit (b : Beamformer) (l : List Focus) : Beamformer × Except PyErr Unit :=
  if l.length ≠ b.kind.points then (b, .error .value) else ({ b with transmitFocus := l }, .ok ())

/-- `receive_focus` setter, lines 438-450. -/
def Beamformer.setReceive (b : Beamformer) (l : List Focus) : Beamformer × Except PyErr Unit :=
  if l.length ≠ b.kind.points then (b, .error .value) else ({ b with receiveFocus := l }, .ok ())

/-- Lines 471-473. -/
def Points.expand : Points → List (List (ℝ × ℝ))
  | .two l => [l]
  | .three l => l

/-- `probe_focus_points` setter, lines 469-483; arrays without probes have a second dimension of their own
which is not modelled. -/
def Beamformer.setProbe (b : Beamformer) (v : Points) : Beamformer × Except PyErr Unit :=
  if ∃ x ∈ v.expand, x.length ≠ b.kind.points then (b, .error .value)
  else ({ b with probe := v.expand }, .ok ())

/-- Angles handed to `_encode` and `_decode`, lines 303-332 and 560-582: the given focus, otherwise the one
configured; their number must match. -/
noncomputable def focusAngles (b : Beamformer) (a : Array) (configured : List Focus) (given : Option (List Focus)) :
    Except PyErr (List (ℝ × ℝ)) :=
  let l := given.getD configured
  if l.length ≠ b.kind.points then .error .value else collect (Focus.angles a) l

/-- `probe`, lines 597-621, of a conventional beamformer: two-dimensional arrays cannot be indexed by
`angles[:, 0, :]` (`conventional.py` 127). -/
noncomputable def convProbe (b : Beamformer) (a : Array) (f : ℝ) {n t : Nat} (X : Matrix (Fin n) (Fin t) ℂ)
    (v : Option Points) : Except PyErr (List (Fin t → ℂ)) :=
  match v.getD (.three b.probe) with
  | .two _ => .error .index
  | .three l =>
    match collect (fun x => match x with | p :: _ => Except.ok p | [] => .error .index) l with
    | .error e => .error e
    | .ok angles => convDecode a f X angles

/-- `serialize` and `Deserialize`: `conventional.py` 131-138, `capon.py` 101-108,
`nullsteeringbeamformer.py` 103-110. -/
noncomputable def Beamformer.restore (b : Beamformer) : Beamformer := Beamformer.create b.kind

/-- A user's assignments. -/
inductive Assign where
  | transmit (l : List Focus)
  | receive (l : List Focus)
  | probe (v : Points)

def Beamformer.assign (b : Beamformer) : Assign → Beamformer
  | .transmit l => (b.setTransmit l).1
  | .receive l => (b.setReceive l).1
  | .probe v => (b.setProbe v).1

/-- C82: after any program of assignments, refused ones included, a beamformer holds as many focus points as
it requires, so it can always be used without a focus; a focus is used if given, and refused exactly if it has
another number of points. -/
theorem C82_counts (k : Kind) (ops : List Assign) (a : Array) :
    let b := ops.foldl Beamformer.assign (Beamformer.create k)
    b.kind = k ∧ b.transmitFocus.length = k.points ∧ b.receiveFocus.length = k.points ∧
    (∀ x ∈ b.probe, x.length = k.points) ∧
    (∀ c l, l.length ≠ k.points → focusAngles b a c (some l) = .error .value) ∧
    (∀ c l, l.length = k.points → focusAngles b a c (some l) = collect (Focus.angles a) l) ∧
    focusAngles b a b.receiveFocus none = collect (Focus.angles a) b.receiveFocus := by
  intro b
  have key : ∀ (ops : List Assign) (b : Beamformer), b.kind = k → b.transmitFocus.length = k.points →
      b.receiveFocus.length = k.points → (∀ x ∈ b.probe, x.length = k.points) →
      let b' := ops.foldl Beamformer.assign b
      b'.kind = k ∧ b'.transmitFocus.length = k.points ∧ b'.receiveFocus.length = k.points ∧
        ∀ x ∈ b'.probe, x.length = k.points := by
    intro ops
    induction ops with
    | nil => intro b h1 h2 h3 h4; exact ⟨h1, h2, h3, h4⟩
    | cons o ops ih =>
      intro b h1 h2 h3 h4
      rw [List.foldl_cons]
      cases o with
      | transmit l =>
        by_cases h : l.length = b.kind.points
        · have e : b.assign (.transmit l) = { b with transmitFocus := l } := by
            simp [Beamformer.assign, Beamformer.setTransmit, h]
          rw [e]; exact ih _ h1 (by simp [h, h1]) h3 h4
        · have e : b.assign (.transmit l) = b := by simp [Beamformer.assign, Beamformer.setTransmit, h]
          rw [e]; exact ih _ h1 h2 h3 h4
      | receive l =>
        by_cases h : l.length = b.kind.points
        · have e : b.assign (.receive l) = { b with receiveFocus := l } := by
            simp [Beamformer.assign, Beamformer.setReceive, h]
          rw [e]; exact ih _ h1 h2 (by simp [h, h1]) h4
        · have e : b.assign (.receive l) = b := by simp [Beamformer.assign, Beamformer.setReceive, h]
          rw [e]; exact ih _ h1 h2 h3 h4
      | probe v =>
        have e : b.assign (.probe v) = (b.setProbe v).1 := rfl
        rw [e]
        unfold Beamformer.setProbe
        split
        · exact ih _ h1 h2 h3 h4
        · rename_i h
          push Not at h
          exact ih _ h1 h2 h3 (fun x hx => by rw [← h1]; exact h x hx)
  obtain ⟨h1, h2, h3, h4⟩ := key ops (Beamformer.create k) rfl (by simp [Beamformer.create])
    (by simp [Beamformer.create]) (by simp [Beamformer.create])
  refine ⟨h1, h2, h3, h4, fun c l hl => ?_, fun c l hl => ?_, ?_⟩
  · have : l.length ≠ b.kind.points := by rw [h1]; exact hl
    simp [focusAngles, this]
  · have : l.length = b.kind.points := by rw [h1]; exact hl
    simp [focusAngles, this]
  · have : b.receiveFocus.length = b.kind.points := by rw [h1]; exact h3
    simp [focusAngles, this]

/-- C82 fails for probes of the documented shape, two dimensions: for every signal and every such array of
points, conventional beamformers raise an `IndexError`; the same points with a third dimension are decoded one
by one. -/
theorem C82_probe_fails (b : Beamformer) (a : Array) (f : ℝ) {n t : Nat} (h : (a.select .rx).length = n)
    (hn : n ≠ 0) (X : Matrix (Fin n) (Fin t) ℂ) (l : List (ℝ × ℝ)) :
    convProbe b a f X (some (.two l)) = .error .index ∧
      convProbe b a f X (some (.three (l.map fun x => [x]))) =
        .ok (l.map fun an => aligned a f h X (fromSpherical an.1 an.2)) := by
  refine ⟨rfl, ?_⟩
  have hc : collect (fun x : List (ℝ × ℝ) => match x with | p :: _ => Except.ok p | [] => .error .index)
      (l.map fun x => [x]) = .ok l := by
    induction l with
    | nil => rfl
    | cons x xs ih => simp only [List.map_cons, collect, ih]
  simp only [convProbe, Option.getD_some, hc]
  exact convDecode_eq a f h hn X l

/-- C82 fails for stored beamformers: they are restored without their focus points. -/
theorem C82_restore_fails (k : Kind) (fo : Focus) (hfo : fo ≠ .spherical 0 0) :
    let b := (Beamformer.create k).assign (.receive (List.replicate k.points fo))
    b.receiveFocus = List.replicate k.points fo ∧ b.restore.receiveFocus ≠ b.receiveFocus ∧
      b.restore.receiveFocus = List.replicate k.points (.spherical 0 0) := by
  have hb : (Beamformer.create k).assign (.receive (List.replicate k.points fo)) =
      { Beamformer.create k with receiveFocus := List.replicate k.points fo } := by
    simp [Beamformer.assign, Beamformer.setReceive, Beamformer.create]
  intro b
  have hr : b.restore.receiveFocus = List.replicate k.points (.spherical 0 0) := by
    simp only [b, hb]; rfl
  have hb' : b.receiveFocus = List.replicate k.points fo := by simp only [b, hb]
  refine ⟨hb', ?_, hr⟩
  rw [hr, hb']
  intro h
  cases k <;> simp [Kind.points, List.replicate] at h <;> exact hfo h.symm

example : Focus.spherical 1 1 ≠ .spherical 0 0 := by simp

end Verif.Beam
