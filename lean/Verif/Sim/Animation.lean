import Verif.Core.Lookat
import Mathlib.Analysis.Calculus.Deriv.Add
import Mathlib.Analysis.Calculus.Deriv.Mul

/-!
# C107: trajectories

Model of `hermespy/simulation/animation.py`.  Times and coordinates are real numbers.  Orientations between two poses are
those of `scipy.spatial.transform.Slerp`, which is a parameter with the contract `Slerp`.
-/

namespace Verif.Animation

open Matrix Verif.Core
open Verif (PyErr)

noncomputable section

/-- `LinearTrajectory`, `animation.py` 158-161 and 184-187.  Poses are kept, the velocity and the orientations to interpolate
are computed once. -/
structure Linear where
  initial : Mat4
  final : Mat4
  duration : ℝ
  start : ℝ
  velocity : Vec3
  rot0 : Mat3
  rot1 : Mat3

/-- `LinearTrajectory.__init__`, `animation.py` 163-187. -/
def Linear.create (initial final : Mat4) (duration start : ℝ) : Except PyErr Linear :=
  if duration ≤ 0 then .error .value
  else if start < 0 then .error .value
  else .ok ⟨initial, final, duration, start, scale (translation final - translation initial) duration, rot initial, rot final⟩

/-- `np.clip`. -/
def clip (t a b : ℝ) : ℝ := min (max t a) b

/-- Motions: linear ones, static ones (`animation.py` 225-237) and the letter b (349-365). -/
inductive Motion
  | linear (l : Linear)
  | static (pose : Mat4) (velocity : Vec3)
  | letter (height duration : ℝ)

/-- The section of the letter at a time: start and end points and times, `animation.py` 371-397. -/
def letterSection (h d t : ℝ) : Vec3 × Vec3 × ℝ × ℝ :=
  if t > d * 4 / 5 then (![h * (1 / 2), h * (1 / 2), 0], ![0, h * (1 / 2), 0], d * 4 / 5, d)
  else if t > d * 3 / 5 then (![h * (1 / 2), 0, 0], ![h * (1 / 2), h * (1 / 2), 0], d * 3 / 5, d * 4 / 5)
  else if t > d * 2 / 5 then (![0, 0, 0], ![h * (1 / 2), 0, 0], d * 2 / 5, d * 3 / 5)
  else (![0, h, 0], ![0, 0, 0], 0, d * 2 / 5)

/-- `BITrajectoryB.sample_velocity`, `animation.py` 399-403. -/
def letterVelocity (h d t : ℝ) : Vec3 :=
  let s := letterSection h d t
  if t ≤ s.2.2.1 ∨ t ≥ s.2.2.2 then 0 else fun i => (s.2.1 i - s.1 i) / s.2.2.2 - s.2.2.1

/-- `BITrajectoryB.sample_translation`, `animation.py` 405-409. -/
def letterPosition (h d t : ℝ) : Vec3 :=
  let s := letterSection h d t
  if t ≤ s.2.2.1 ∨ t ≥ s.2.2.2 then ![0, 1 / 2 * h, 0] else fun i => s.1 i + letterVelocity h d t i * (t - s.2.2.1)

/-- `sample_velocity`, `animation.py` 193-197, 255-256, 399-403. -/
def Motion.velocity : Motion → ℝ → Vec3
  | .linear l, t => if t ≥ l.start ∧ t < l.start + l.duration then l.velocity else 0
  | .static _ v, _ => v
  | .letter h d, t => letterVelocity h d t

/-- `sample_translation`, `animation.py` 199-201, 258-259, 405-409. -/
def Motion.position : Motion → ℝ → Vec3
  | .linear l, t => fun i => translation l.initial i + (clip t l.start (l.start + l.duration) - l.start) * l.velocity i
  | .static p _, _ => translation p
  | .letter h d, t => letterPosition h d t

/-- `sample_orientation`, `animation.py` 203-205, 261-262, 411-412.  `slerp` takes both orientations and the share of the time
between them. -/
def Motion.orientation (slerp : Mat3 → Mat3 → ℝ → Mat3) : Motion → ℝ → Mat3
  | .linear l, t => slerp l.rot0 l.rot1 ((clip t l.start (l.start + l.duration) - l.start) / l.duration)
  | .static p _, _ => rot p
  | .letter _ _, _ => 1

/-- `max_timestamp`, `animation.py` 189-191, 251-253, 367-369. -/
def Motion.maxTimestamp : Motion → ℝ
  | .linear l => l.start + l.duration
  | .static _ _ => 0
  | .letter _ d => d

/-- A trajectory: its motion and what it looks at, `animation.py` 61-64.  Only the positions of targets are ever used, so that
a target is its motion. -/
structure Traj where
  motion : Motion
  flag : Bool := false
  target : Option Motion := none
  up : Vec3 := ![0, 1, 0]

/-- `lookat`, `animation.py` 66-76. -/
def Traj.lookat (t : Traj) (target : Motion) (up : Vec3) : Traj := { t with flag := true, target := some target, up := up }

/-- `lookat_disable`, `animation.py` 78-79. -/
def Traj.disable (t : Traj) : Traj := { t with flag := false }

/-- `lookat_enable`, `animation.py` 81-85. -/
def Traj.enable (t : Traj) : Except PyErr Traj :=
  match t.target with
  | none => .error .runtime
  | some _ => .ok { t with flag := true }

/-- `sample`, `animation.py` 130-150, and that of static trajectories, 264-265: the pose, the velocity and the trajectory
afterwards, whose up vector `Transformation.lookat` normalises in place. -/
def Traj.sample (slerp : Mat3 → Mat3 → ℝ → Mat3) (t : Traj) (time : ℝ) : Except PyErr (Mat4 × Vec3 × Traj) :=
  match t.motion with
  | .static p v => .ok (p, v, t)
  | m =>
    if t.flag then
      match t.target with
      | none => .error .attribute
      | some target =>
        let r := lookatPose (assemble 1 (m.position time)) (target.position time) t.up
        .ok (r.1, m.velocity time, { t with up := r.2 })
    else .ok (assemble (m.orientation slerp time) (m.position time), m.velocity time, t)

/-- Stored and restored trajectories, `animation.py` 207-222, 292-303, 414-425. -/
def Traj.restore (t : Traj) : Except PyErr Traj :=
  match t.motion with
  | .linear l => do
    let l' ← Linear.create l.initial l.final l.duration l.start
    .ok { motion := .linear l' }
  | m => .ok { motion := m }

/-- What is assumed of interpolated orientations: they are rotations, and those given at both ends. -/
structure Slerp (slerp : Mat3 → Mat3 → ℝ → Mat3) : Prop where
  rotation : ∀ R S s, IsRotation R → IsRotation S → 0 ≤ s → s ≤ 1 → IsRotation (slerp R S s)
  first : ∀ R S, IsRotation R → slerp R S 0 = R
  last : ∀ R S, IsRotation S → slerp R S 1 = S

theorem translation_assemble (R : Mat3) (p : Vec3) : translation (assemble R p) = p := by
  funext i
  fin_cases i <;> simp [translation, assemble]

theorem rot_assemble' (R : Mat3) (p : Vec3) : rot (assemble R p) = R := by
  ext i j
  fin_cases i <;> fin_cases j <;> simp [rot, assemble]

/-! ### Linear trajectories -/

/-- C107: durations must be positive and start times must not be negative. -/
theorem C107_create (initial final : Mat4) (duration start : ℝ) :
    (0 < duration → 0 ≤ start → ∃ l, Linear.create initial final duration start = .ok l) ∧
    ((duration ≤ 0 ∨ start < 0) → Linear.create initial final duration start = .error .value) := by
  constructor
  · intro h1 h2
    exact ⟨_, by rw [Linear.create, if_neg (by linarith), if_neg (by linarith)]⟩
  · rintro (h | h)
    · rw [Linear.create, if_pos h]
    · rw [Linear.create]
      by_cases h1 : duration ≤ 0
      · rw [if_pos h1]
      · rw [if_neg h1, if_pos h]

theorem create_ok {initial final : Mat4} {duration start : ℝ} {l : Linear}
    (h : Linear.create initial final duration start = .ok l) :
    0 < duration ∧ 0 ≤ start ∧
    l = ⟨initial, final, duration, start, scale (translation final - translation initial) duration, rot initial, rot final⟩ := by
  rw [Linear.create] at h
  by_cases h1 : duration ≤ 0
  · rw [if_pos h1] at h; cases h
  · rw [if_neg h1] at h
    by_cases h2 : start < 0
    · rw [if_pos h2] at h; cases h
    · rw [if_neg h2] at h
      injection h with h
      exact ⟨lt_of_not_ge h1, le_of_not_gt h2, h.symm⟩

theorem clip_before {t a b : ℝ} (h : t ≤ a) (hab : a ≤ b) : clip t a b = a := by
  rw [clip, max_eq_right h, min_eq_left hab]

theorem clip_after {t a b : ℝ} (h : b ≤ t) (hab : a ≤ b) : clip t a b = b := by
  rw [clip, max_eq_left (by linarith), min_eq_right h]

theorem clip_between {t a b : ℝ} (h1 : a ≤ t) (h2 : t ≤ b) : clip t a b = t := by
  rw [clip, max_eq_left h1, min_eq_left h2]

/-- C107, linear trajectories: objects are at the initial position until the start, at the final one from the end on, and
divide the line between both as the time divides the duration. -/
theorem C107_linear (initial final : Mat4) (duration start : ℝ) (l : Linear)
    (h : Linear.create initial final duration start = .ok l) (t : ℝ) :
    (t ≤ start → (Motion.linear l).position t = translation initial) ∧
    (start + duration ≤ t → (Motion.linear l).position t = translation final) ∧
    (start ≤ t → t ≤ start + duration → ∀ i, (Motion.linear l).position t i =
      (1 - (t - start) / duration) * translation initial i + (t - start) / duration * translation final i) := by
  obtain ⟨hd, -, rfl⟩ := create_ok h
  have hd' := hd.ne'
  refine ⟨fun ht => ?_, fun ht => ?_, fun h1 h2 i => ?_⟩
  · funext i
    simp only [Motion.position]
    rw [clip_before ht (by linarith)]
    ring
  · funext i
    simp only [Motion.position, scale, Pi.sub_apply]
    rw [clip_after ht (by linarith)]
    field_simp
    ring
  · simp only [Motion.position, scale, Pi.sub_apply]
    rw [clip_between h1 h2]
    field_simp
    ring

/-- C107, linear trajectories: at every time, the velocity reported is the rate at which the position is going to change. -/
theorem C107_linear_velocity (initial final : Mat4) (duration start : ℝ) (l : Linear)
    (h : Linear.create initial final duration start = .ok l) (t : ℝ) (i : Fin 3) :
    HasDerivWithinAt (fun u => (Motion.linear l).position u i) ((Motion.linear l).velocity t i) (Set.Ici t) t := by
  obtain ⟨hd, -, rfl⟩ := create_ok h
  simp only [Motion.position, Motion.velocity]
  set v := scale (translation final - translation initial) duration
  by_cases h1 : t < start
  · rw [if_neg (fun h => absurd h.1 (not_le.mpr h1))]
    have : HasDerivWithinAt (fun _ : ℝ => translation initial i + (start - start) * v i) ((0 : Vec3) i) (Set.Ici t) t :=
      hasDerivWithinAt_const _ _ _
    refine this.congr_of_eventuallyEq ?_ (by rw [clip_before h1.le (by linarith)])
    filter_upwards [nhdsWithin_le_nhds (Iio_mem_nhds h1)] with u hu
    rw [clip_before (le_of_lt hu) (by linarith)]
  · by_cases h2 : t < start + duration
    · rw [if_pos ⟨le_of_not_gt h1, h2⟩]
      have h3 : HasDerivWithinAt (fun u : ℝ => translation initial i + (u - start) * v i) (1 * v i) (Set.Ici t) t := by
        have h4 := ((hasDerivWithinAt_id t (Set.Ici t)).sub_const start).mul_const (v i)
        exact h4.const_add (translation initial i)
      rw [one_mul] at h3
      refine h3.congr_of_eventuallyEq ?_ (by rw [clip_between (le_of_not_gt h1) h2.le])
      filter_upwards [nhdsWithin_le_nhds (Iio_mem_nhds h2), self_mem_nhdsWithin] with u hu hu2
      rw [clip_between ((le_of_not_gt h1).trans hu2) (le_of_lt hu)]
    · rw [if_neg (fun h => h2 h.2)]
      have : HasDerivWithinAt (fun _ : ℝ => translation initial i + (start + duration - start) * v i) ((0 : Vec3) i)
          (Set.Ici t) t := hasDerivWithinAt_const _ _ _
      refine this.congr_of_eventuallyEq ?_ (by rw [clip_after (le_of_not_gt h2) (by linarith)])
      filter_upwards [self_mem_nhdsWithin] with u hu
      rw [clip_after ((le_of_not_gt h2).trans hu) (by linarith)]

/-- C107, linear trajectories that look at nothing: poses are rigid, the initial one until the start and the final one from
the end on. -/
theorem C107_linear_pose (slerp : Mat3 → Mat3 → ℝ → Mat3) (hS : Slerp slerp) (initial final : Mat3) (p q : Vec3)
    (hi : IsRotation initial) (hf : IsRotation final) (duration start : ℝ) (l : Linear)
    (h : Linear.create (assemble initial p) (assemble final q) duration start = .ok l) (t : ℝ) :
    ∃ T v, Traj.sample slerp { motion := .linear l } t = .ok (T, v, { motion := .linear l }) ∧ IsRotation (rot T) ∧
      translation T = (Motion.linear l).position t ∧ v = (Motion.linear l).velocity t ∧
      (t ≤ start → T = assemble initial p) ∧ (start + duration ≤ t → T = assemble final q) := by
  have hl := C107_linear _ _ _ _ _ h t
  obtain ⟨hd, hs, rfl⟩ := create_ok h
  simp only [translation_assemble] at hl
  refine ⟨_, _, rfl, ?_, translation_assemble _ _, rfl, ?_, ?_⟩
  · rw [rot_assemble']
    simp only [Motion.orientation, rot_assemble']
    refine hS.rotation _ _ _ hi hf ?_ ?_
    · refine div_nonneg ?_ hd.le
      have : start ≤ clip t start (start + duration) := le_min (le_max_right _ _) (by linarith)
      linarith
    · rw [div_le_one hd]
      have : clip t start (start + duration) ≤ start + duration := min_le_right _ _
      linarith
  · intro ht
    rw [translation_assemble, translation_assemble, hl.1 ht]
    simp only [Motion.orientation, rot_assemble']
    rw [clip_before ht (by linarith), sub_self, zero_div, hS.first _ _ hi]
  · intro ht
    rw [translation_assemble, translation_assemble, hl.2.1 ht]
    simp only [Motion.orientation, rot_assemble']
    rw [clip_after ht (by linarith), add_sub_cancel_left, div_self hd.ne', hS.last _ _ hf]

/-! ### After the end -/

/-- C107: trajectories that look at nothing do not change after their last time. -/
theorem C107_max_partial (slerp : Mat3 → Mat3 → ℝ → Mat3) (m : Motion)
    (hm : ∀ l, m = .linear l → 0 ≤ l.duration) (hb : ∀ h d, m = .letter h d → 0 ≤ d)
    (t : ℝ) (ht : m.maxTimestamp ≤ t) :
    Traj.sample slerp { motion := m } t = Traj.sample slerp { motion := m } m.maxTimestamp := by
  cases m with
  | static p v => rfl
  | linear l =>
    have hd := hm l rfl
    simp only [Motion.maxTimestamp] at ht
    have key : ∀ u, l.start + l.duration ≤ u → (Motion.linear l).velocity u = 0 ∧
        clip u l.start (l.start + l.duration) = l.start + l.duration := by
      intro u hu
      refine ⟨?_, clip_after hu (by linarith)⟩
      simp only [Motion.velocity]
      rw [if_neg (fun h => absurd h.2 (not_lt.mpr hu))]
    simp only [Traj.sample, Motion.orientation, Motion.position]
    rw [(key t ht).1, (key t ht).2, (key (Motion.linear l).maxTimestamp le_rfl).1, (key (Motion.linear l).maxTimestamp le_rfl).2]
  | letter h d =>
    have hd := hb h d rfl
    simp only [Motion.maxTimestamp] at ht
    have key : ∀ u, d ≤ u → letterPosition h d u = ![0, 1 / 2 * h, 0] ∧ letterVelocity h d u = 0 := by
      intro u hu
      have h0 : u ≤ (letterSection h d u).2.2.1 ∨ u ≥ (letterSection h d u).2.2.2 := by
        unfold letterSection
        split_ifs <;> simp only <;> right <;> linarith
      simp only [letterPosition, letterVelocity]
      rw [if_pos h0, if_pos h0]
      exact ⟨rfl, rfl⟩
    simp only [Traj.sample, Motion.orientation, Motion.position, Motion.velocity, Motion.maxTimestamp]
    rw [(key t ht).1, (key t ht).2, (key d le_rfl).1, (key d le_rfl).2]

/-! ### Looking at targets -/

/-- C107: a trajectory that looks at another one follows its motion, with the target straight ahead at its distance, at any
time at which the direction to the target is none and not that of the up vector.  Missing: static trajectories, see
`C107_static_lookat_fails`. -/
theorem C107_lookat_partial (slerp : Mat3 → Mat3 → ℝ → Mat3) (t : Traj) (target : Motion) (up : Vec3) (time : ℝ)
    (hm : ∀ p v, t.motion ≠ .static p v) (hup : up ≠ 0)
    (hpar : cross up (target.position time - t.motion.position time) ≠ 0) :
    ∃ T t', (t.lookat target up).sample slerp time = .ok (T, t.motion.velocity time, t') ∧
      IsRotation (rot T) ∧ translation T = t.motion.position time ∧
      transformPosition T ![0, 0, norm3 (target.position time - t.motion.position time)] = target.position time ∧
      dot3 (fun i => rot T i 0) up = 0 ∧ 0 < dot3 (fun i => rot T i 1) up := by
  have h := C49_lookat_partial (assemble 1 (t.motion.position time)) (target.position time) up hup
    (by rw [translation_assemble]; exact hpar)
  simp only [translation_assemble] at h
  obtain ⟨h1, h2, h3, -, h5, h6⟩ := h
  refine ⟨_, { t.lookat target up with
      up := (lookatPose (assemble 1 (t.motion.position time)) (target.position time) up).2 }, ?_, h1, h2, h3, h5, h6⟩
  · cases hmo : t.motion with
    | static p v => exact absurd hmo (hm p v)
    | linear l => simp only [Traj.sample, Traj.lookat, hmo]; rfl
    | letter a b => simp only [Traj.sample, Traj.lookat, hmo]; rfl

theorem scale_scale (up : Vec3) : scale (scale up (norm3 up)) (norm3 (scale up (norm3 up))) = scale up (norm3 up) := by
  by_cases h : up = 0
  · subst h
    funext i
    simp [scale]
  · have h1 := scale_unit h
    have h2 : norm3 (scale up (norm3 up)) = 1 := by
      unfold norm3
      unfold IsUnitVec at h1
      unfold norm3 at h1
      rw [h1, Real.sqrt_one]
    rw [h2]
    funext i
    simp [scale]

/-- C107: samples do not depend on the samples taken before. -/
theorem C107_history (slerp : Mat3 → Mat3 → ℝ → Mat3) (t t' : Traj) (earlier time : ℝ) (T : Mat4) (v : Vec3)
    (h : t.sample slerp earlier = .ok (T, v, t')) :
    (t'.sample slerp time).map (fun r => (r.1, r.2.1)) = (t.sample slerp time).map fun r => (r.1, r.2.1) := by
  unfold Traj.sample at h ⊢
  cases hm : t.motion with
  | static p w =>
    simp only [hm] at h
    cases h
    simp only [hm]
  | linear l =>
    simp only [hm] at h
    cases hf : t.flag with
    | false =>
      simp only [hf, Bool.false_eq_true, if_false] at h
      cases h
      simp only [hm, hf]
    | true =>
      cases ht : t.target with
      | none => simp [hf, ht] at h
      | some g =>
        simp only [hf, ht, if_true] at h
        cases h
        simp only [Except.map, lookatPose, scale_scale, if_true]
  | letter a b =>
    simp only [hm] at h
    cases hf : t.flag with
    | false =>
      simp only [hf, Bool.false_eq_true, if_false] at h
      cases h
      simp only [hm, hf]
    | true =>
      cases ht : t.target with
      | none => simp [hf, ht] at h
      | some g =>
        simp only [hf, ht, if_true] at h
        cases h
        simp only [Except.map, lookatPose, scale_scale, if_true]

/-- C107: looking is disabled and enabled again without a trace; it can not be enabled before there was a target. -/
theorem C107_switch (slerp : Mat3 → Mat3 → ℝ → Mat3) (m target : Motion) (up : Vec3) (time : ℝ) :
    (∀ T v t', Traj.sample slerp { motion := m } time = .ok (T, v, t') →
      ∃ t'', ((Traj.lookat { motion := m } target up).disable).sample slerp time = .ok (T, v, t'')) ∧
    (Traj.lookat { motion := m } target up).disable.enable = .ok (Traj.lookat { motion := m } target up) ∧
    Traj.enable { motion := m } = .error .runtime := by
  refine ⟨fun T v t' h => ?_, rfl, rfl⟩
  cases m with
  | static p w =>
    simp only [Traj.sample] at h
    cases h
    exact ⟨_, rfl⟩
  | linear l =>
    simp only [Traj.sample] at h
    cases h
    exact ⟨_, rfl⟩
  | letter a b =>
    simp only [Traj.sample] at h
    cases h
    exact ⟨_, rfl⟩

theorem lookat_axis (T : Mat4) (target up : Vec3) (hne : target ≠ translation T) (i : Fin 3) :
    rot (lookatPose T target up).1 i 2 = scale (target - translation T) (norm3 (target - translation T)) i := by
  have hn : norm3 (target - translation T) ≠ 0 := (norm3_ne (sub_ne_zero.mpr hne)).ne'
  unfold lookatPose
  dsimp only
  rw [if_pos hn]
  fin_cases i <;> simp [rot, setColumns]

/-- C107: two trajectories may look at each other; they then look in opposite directions, wherever they are. -/
theorem C107_mutual (slerp : Mat3 → Mat3 → ℝ → Mat3) (a b : Traj) (up up' : Vec3) (time : ℝ)
    (ha : ∀ p v, a.motion ≠ .static p v) (hb : ∀ p v, b.motion ≠ .static p v)
    (hne : a.motion.position time ≠ b.motion.position time) :
    ∃ S T a' b', (a.lookat b.motion up).sample slerp time = .ok (S, a.motion.velocity time, a') ∧
      (b.lookat a.motion up').sample slerp time = .ok (T, b.motion.velocity time, b') ∧
      ∀ i, rot S i 2 = -rot T i 2 := by
  refine ⟨(lookatPose (assemble 1 (a.motion.position time)) (b.motion.position time) up).1,
    (lookatPose (assemble 1 (b.motion.position time)) (a.motion.position time) up').1,
    { a.lookat b.motion up with up := (lookatPose (assemble 1 (a.motion.position time)) (b.motion.position time) up).2 },
    { b.lookat a.motion up' with up := (lookatPose (assemble 1 (b.motion.position time)) (a.motion.position time) up').2 },
    ?_, ?_, fun i => ?_⟩
  · cases hmo : a.motion with
    | static p v => exact absurd hmo (ha p v)
    | linear l => simp only [Traj.sample, Traj.lookat, hmo]; rfl
    | letter x y => simp only [Traj.sample, Traj.lookat, hmo]; rfl
  · cases hmo : b.motion with
    | static p v => exact absurd hmo (hb p v)
    | linear l => simp only [Traj.sample, Traj.lookat, hmo]; rfl
    | letter x y => simp only [Traj.sample, Traj.lookat, hmo]; rfl
  · rw [lookat_axis _ _ _ (by rw [translation_assemble]; exact hne.symm),
      lookat_axis _ _ _ (by rw [translation_assemble]; exact hne), translation_assemble, translation_assemble]
    have hs : norm3 (a.motion.position time - b.motion.position time) =
        norm3 (b.motion.position time - a.motion.position time) := by
      unfold norm3
      congr 1
      simp only [Pi.sub_apply]
      ring
    simp only [scale, Pi.sub_apply, hs]
    ring

/-- C107 fails for static trajectories: they never look at anything. -/
theorem C107_static_lookat_fails (slerp : Mat3 → Mat3 → ℝ → Mat3) (p : Mat4) (v : Vec3) (target : Motion) (up : Vec3)
    (time : ℝ) :
    ∃ t', (Traj.lookat { motion := .static p v } target up).sample slerp time = .ok (p, v, t') :=
  ⟨_, rfl⟩

/-- C107 fails for static trajectories with a velocity: they report to move, but do not. -/
theorem C107_static_velocity_fails (p : Mat4) (v : Vec3) (i : Fin 3) (hv : v i ≠ 0) (t : ℝ) :
    (Motion.static p v).velocity t i = v i ∧
    ¬ HasDerivWithinAt (fun u => (Motion.static p v).position u i) ((Motion.static p v).velocity t i) (Set.Ici t) t := by
  refine ⟨rfl, fun h => hv ?_⟩
  have h0 : HasDerivWithinAt (fun _ : ℝ => translation p i) 0 (Set.Ici t) t := hasDerivWithinAt_const _ _ _
  have hu : UniqueDiffWithinAt ℝ (Set.Ici t) t := uniqueDiffOn_Ici t t Set.self_mem_Ici
  exact hu.eq_deriv _ h h0

/-- C107 fails for the last time of trajectories that look at others: their pose changes with the target. -/
theorem C107_max_fails (slerp : Mat3 → Mat3 → ℝ → Mat3) (l g : Linear) (up : Vec3) (t : ℝ)
    (hl : l.start + l.duration < t) (hd : 0 ≤ l.duration)
    (h1 : (Motion.linear g).position t - (Motion.linear l).position t =
      -((Motion.linear g).position (l.start + l.duration) - (Motion.linear l).position t))
    (hne : (Motion.linear g).position t ≠ (Motion.linear l).position t) :
    ∃ S T v w a b, (Traj.lookat { motion := .linear l } (.linear g) up).sample slerp (l.start + l.duration) = .ok (S, v, a) ∧
      (Traj.lookat { motion := .linear l } (.linear g) up).sample slerp t = .ok (T, w, b) ∧ S ≠ T := by
  refine ⟨_, _, _, _, _, _, rfl, rfl, fun h => ?_⟩
  have hp : (Motion.linear l).position (l.start + l.duration) = (Motion.linear l).position t := by
    funext i
    simp only [Motion.position]
    rw [clip_after le_rfl (by linarith), clip_after hl.le (by linarith)]
  have hne2 : (Motion.linear g).position (l.start + l.duration) ≠ (Motion.linear l).position t := by
    intro h2
    rw [h2, sub_self, neg_zero, sub_eq_zero] at h1
    exact hne h1
  have key : ∀ i, rot (lookatPose (assemble 1 ((Motion.linear l).position (l.start + l.duration)))
      ((Motion.linear g).position (l.start + l.duration)) up).1 i 2 =
      rot (lookatPose (assemble 1 ((Motion.linear l).position t)) ((Motion.linear g).position t) up).1 i 2 := by
    intro i
    exact congrFun (congrFun (congrArg rot h) i) 2
  apply hne
  rw [hp] at key
  have hz : ∀ i, ((Motion.linear g).position t - (Motion.linear l).position t) i = 0 := by
    intro i
    have := key i
    rw [lookat_axis _ _ _ (by rw [translation_assemble]; exact hne2),
      lookat_axis _ _ _ (by rw [translation_assemble]; exact hne), translation_assemble, h1] at this
    set d := (Motion.linear g).position (l.start + l.duration) - (Motion.linear l).position t with hdd
    have hn : norm3 (-d) = norm3 d := by
      unfold norm3
      congr 1
      simp only [Pi.neg_apply]
      ring
    have hd0 : 0 < norm3 d := norm3_ne (sub_ne_zero.mpr hne2)
    simp only [scale, hn, Pi.neg_apply] at this
    rw [div_left_inj' hd0.ne'] at this
    rw [h1, Pi.neg_apply]
    linarith
  funext i
  have := hz i
  rw [Pi.sub_apply] at this
  linarith

/-! ### Storage -/

/-- C107: stored and restored trajectories that look at nothing are as before. -/
theorem C107_restore_partial (m : Motion)
    (hm : ∀ l, m = .linear l → ∃ a b d s, Linear.create a b d s = .ok l) :
    Traj.restore { motion := m } = .ok { motion := m } := by
  cases m with
  | static p v => rfl
  | letter h d => rfl
  | linear l =>
    obtain ⟨a, b, d, s, h⟩ := hm l rfl
    obtain ⟨-, -, e⟩ := create_ok h
    simp only [Traj.restore]
    subst e
    simp only
    rw [h]
    rfl

/-- C107 fails for trajectories that look at others: restored ones look at nothing. -/
theorem C107_restore_fails (m target : Motion) (up : Vec3)
    (hm : ∀ l, m = .linear l → ∃ a b d s, Linear.create a b d s = .ok l) :
    (Traj.lookat { motion := m } target up).restore = .ok { motion := m } ∧
    Traj.lookat { motion := m } target up ≠ { motion := m } := by
  constructor
  · have h := C107_restore_partial m hm
    cases m <;> exact h
  · intro h
    exact absurd (congrArg Traj.flag h) (by simp [Traj.lookat])

/-- C107 fails if the initial pose is changed after the trajectory was created: the trajectory does not end at its final
pose, and the stored and restored one is another. -/
theorem C107_alias_fails (a b c : Mat4) (d s : ℝ) (l : Linear) (h : Linear.create a b d s = .ok l)
    (hne : translation c ≠ translation a) :
    (∀ t, s + d ≤ t → (Motion.linear { l with initial := c }).position t ≠ translation b) ∧
    ∃ l', Traj.restore { motion := .linear { l with initial := c } } = .ok { motion := .linear l' } ∧
      ∀ t, s + d ≤ t → (Motion.linear l').position t = translation b := by
  obtain ⟨hd, hs, e⟩ := create_ok h
  subst e
  constructor
  · intro t ht he
    apply hne
    funext i
    have := congrFun he i
    simp only [Motion.position, scale, Pi.sub_apply] at this
    rw [clip_after ht (by linarith), add_sub_cancel_left, mul_div_cancel₀ _ hd.ne'] at this
    linarith
  · obtain ⟨l', hl'⟩ := (C107_create c b d s).1 hd hs
    refine ⟨l', ?_, fun t ht => (C107_linear _ _ _ _ _ hl' t).2.1 ht⟩
    simp only [Traj.restore]
    rw [hl']
    rfl

/-! ### The letter -/

/-- C107, the letter: in its first section, objects move as reported, along the letter. -/
theorem C107_letter_partial (h d t : ℝ) (h1 : 0 < t) (h2 : t < d * 2 / 5) :
    letterPosition h d t = ![0, h - h * (t / (d * 2 / 5)), 0] ∧ letterVelocity h d t = ![0, -(h / (d * 2 / 5)), 0] := by
  have hs : letterSection h d t = (![0, h, 0], ![0, 0, 0], 0, d * 2 / 5) := by
    rw [letterSection, if_neg (by linarith), if_neg (by linarith), if_neg (by linarith)]
  have hc : ¬ (t ≤ 0 ∨ t ≥ d * 2 / 5) := by
    rintro (h | h) <;> linarith
  have hv : letterVelocity h d t = ![0, -(h / (d * 2 / 5)), 0] := by
    simp only [letterVelocity, hs, if_neg hc]
    funext i
    fin_cases i <;> simp [neg_div]
  refine ⟨?_, hv⟩
  simp only [letterPosition, hv, hs, if_neg hc]
  funext i
  fin_cases i <;> simp
  ring

/-- C107 fails for the second section of the letter: objects leave the plane of the letter, and with it the line between the
points of the section. -/
theorem C107_letter_fails (h d t : ℝ) (hd : 0 < d) (h1 : d * 2 / 5 < t) (h2 : t < d * 3 / 5) :
    letterVelocity h d t = ![h * (1 / 2) / (d * 3 / 5) - d * 2 / 5, -(d * 2 / 5), -(d * 2 / 5)] ∧
    letterPosition h d t 2 < 0 := by
  have hs : letterSection h d t = (![0, 0, 0], ![h * (1 / 2), 0, 0], d * 2 / 5, d * 3 / 5) := by
    rw [letterSection, if_neg (by linarith), if_neg (by linarith), if_pos h1]
  have hc : ¬ (t ≤ d * 2 / 5 ∨ t ≥ d * 3 / 5) := by
    rintro (h | h) <;> linarith
  have hv : letterVelocity h d t = ![h * (1 / 2) / (d * 3 / 5) - d * 2 / 5, -(d * 2 / 5), -(d * 2 / 5)] := by
    simp only [letterVelocity, hs, if_neg hc]
    funext i
    fin_cases i <;> simp
  refine ⟨hv, ?_⟩
  simp only [letterPosition, hv, hs, if_neg hc]
  simp
  nlinarith

/-- C107 fails between the sections of the letter: positions jump. -/
theorem C107_letter_jump_fails (h d : ℝ) (hd : 0 < d) (hh : h ≠ 0) :
    letterPosition h d 0 = ![0, 1 / 2 * h, 0] ∧ ¬ ContinuousAt (fun t => letterPosition h d t 1) (d * 2 / 5) := by
  constructor
  · simp only [letterPosition]
    rw [if_pos]
    left
    rw [letterSection, if_neg (by linarith), if_neg (by linarith), if_neg (by linarith)]
  · intro hc
    have hv : letterPosition h d (d * 2 / 5) 1 = 1 / 2 * h := by
      simp only [letterPosition]
      rw [if_pos]
      · simp
      · right
        rw [letterSection, if_neg (by linarith), if_neg (by linarith), if_neg (by linarith)]
    have h1 : Filter.Tendsto (fun t => letterPosition h d t 1) (nhdsWithin (d * 2 / 5) (Set.Iio (d * 2 / 5)))
        (nhds (1 / 2 * h)) := by
      rw [← hv]
      exact hc.tendsto.mono_left nhdsWithin_le_nhds
    have h2 : Filter.Tendsto (fun t : ℝ => h - h * (t / (d * 2 / 5))) (nhdsWithin (d * 2 / 5) (Set.Iio (d * 2 / 5)))
        (nhds 0) := by
      have hcont : Continuous fun t : ℝ => h - h * (t / (d * 2 / 5)) := by fun_prop
      have h3 := (hcont.tendsto (d * 2 / 5)).mono_left (nhdsWithin_le_nhds (s := Set.Iio (d * 2 / 5)))
      rwa [div_self (by positivity), mul_one, sub_self] at h3
    have he : (fun t => letterPosition h d t 1) =ᶠ[nhdsWithin (d * 2 / 5) (Set.Iio (d * 2 / 5))]
        fun t : ℝ => h - h * (t / (d * 2 / 5)) := by
      filter_upwards [self_mem_nhdsWithin, nhdsWithin_le_nhds (Ioi_mem_nhds (by positivity : (0 : ℝ) < d * 2 / 5))] with t h3 h4
      rw [(C107_letter_partial h d t h4 h3).1]
      simp
    have h5 := tendsto_nhds_unique (h1.congr' he) h2
    apply hh
    linarith

/-! ### Examples -/

/-- Interpolated orientations as assumed exist. -/
example : Slerp fun R S s => if s < 1 then R else S where
  rotation R S s hR hS _ _ := by
    by_cases h : s < 1
    · simp only [if_pos h]; exact hR
    · simp only [if_neg h]; exact hS
  first R S _ := by simp
  last R S _ := by simp

example : IsRotation (1 : Mat3) := by simp [IsRotation]

/-- An object moving past one that looks at it and has stopped. -/
example : ∃ l g, Linear.create (assemble 1 ![0, 0, 0]) (assemble 1 ![0, 0, 0]) 1 0 = .ok l ∧
    Linear.create (assemble 1 ![-2, 0, 0]) (assemble 1 ![1, 0, 0]) 3 0 = .ok g ∧ l.start + l.duration < 3 ∧
    (Motion.linear g).position 3 - (Motion.linear l).position 3 =
      -((Motion.linear g).position (l.start + l.duration) - (Motion.linear l).position 3) ∧
    (Motion.linear g).position 3 ≠ (Motion.linear l).position 3 ∧
    cross ![0, 1, 0] ((Motion.linear g).position 3 - (Motion.linear l).position 3) ≠ 0 := by
  obtain ⟨l, hl⟩ := (C107_create (assemble 1 ![0, 0, 0]) (assemble 1 ![0, 0, 0]) 1 0).1 (by norm_num) le_rfl
  obtain ⟨g, hg⟩ := (C107_create (assemble 1 ![-2, 0, 0]) (assemble 1 ![1, 0, 0]) 3 0).1 (by norm_num) le_rfl
  refine ⟨l, g, hl, hg, ?_⟩
  have h1 := (C107_linear _ _ _ _ _ hl 3).2.1 (by norm_num)
  have h2 := (C107_linear _ _ _ _ _ hg 3).2.1 (by norm_num)
  have h3 := (C107_linear _ _ _ _ _ hg 1).2.2 (by norm_num) (by norm_num)
  have e : l.start + l.duration = 1 := by
    obtain ⟨-, -, e⟩ := create_ok hl
    subst e
    norm_num
  rw [translation_assemble] at h1 h2
  simp only [translation_assemble] at h3
  rw [e, h1, h2]
  refine ⟨by norm_num, ?_, ?_, ?_⟩
  · funext i
    simp only [Pi.sub_apply, Pi.neg_apply, h3]
    fin_cases i <;> norm_num
  · intro h
    have := congrFun h 0
    simp at this
  · intro h
    have := congrFun h 2
    simp [cross] at this

end

end Verif.Animation
