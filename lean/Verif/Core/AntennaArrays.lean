import Verif.Core.Antennas
import Mathlib.Analysis.Complex.Exponential

/-!
# C80: topology and responses of antenna arrays

`AntennaArrayBase`, `hermespy/core/antennas.py` 625-1141.  An antenna of an array has the forwards
transformation `array.forwards_transformation @ antenna.pose` (kinematic chains are the subject of C30).
-/

namespace Verif.Core.Ant

open Matrix Verif.Core

/-- An antenna element: mode, model, and pose with respect to its array, `core/antennas.py` 50-74. -/
structure Antenna where
  mode : Mode
  element : Element
  pose : Mat4

/-- An array with its current forwards transformation. -/
structure Array where
  forwards : Mat4
  antennas : List Antenna

/-- Reference frames of arguments: `frame == "global"`, or any other string. -/
inductive Frame where
  | local
  | global

/-- `scipy.constants.speed_of_light`. -/
def light : ℝ := 299792458

/-- `antennas`, `transmit_antennas`, `receive_antennas`, lines 1173-1183 and 1273-1283, by mode as in
815-830. -/
def Array.select (a : Array) : Mode → List Antenna
  | .duplex => a.antennas
  | .tx => a.antennas.filter (fun x => x.mode ≠ .rx)
  | .rx => a.antennas.filter (fun x => x.mode ≠ .tx)

/-- One row of the topology: `a.forwards_transformation[:4, 3]` times the transposed backwards
transformation, first three entries, lines 680-685. -/
def topologyRow (F B : Mat4) (x : Antenna) : Vec3 :=
  let g := fun i : Fin 4 => (F * x.pose) i 3
  let l := B.mulVec g
  ![l 0, l 1, l 2]

/-- `topology`, `transmit_topology`, `receive_topology` and `_topology`, lines 664-755. -/
noncomputable def Array.topology (a : Array) (m : Mode) : Except PyErr (List Vec3) :=
  if (a.select m).length = 0 then .ok []
  else match invert a.forwards with
    | .error e => .error e
    | .ok B => .ok ((a.select m).map (topologyRow a.forwards B))

/-- A three-dimensional vector from a flattened array, or a `ValueError`, lines 934-936 and 989-991. -/
def vec3 : List ℝ → Except PyErr Vec3
  | [x, y, z] => .ok ![x, y, z]
  | _ => .error .value

/-- Complex phase `exp(2j π x)`. -/
noncomputable def phase (x : ℝ) : ℂ := Complex.exp (2 * Real.pi * x * Complex.I)

/-- `cartesian_phase_response`, lines 934-952. -/
noncomputable def Array.cartesianPhase (a : Array) (f : ℝ) (position : List ℝ) (fr : Frame) (m : Mode) :
    Except PyErr (List ℂ) :=
  match vec3 position with
  | .error e => .error e
  | .ok p =>
    match (match fr with
      | .local => Except.ok p
      | .global => (invert a.forwards).map (fun B => transformPosition B p)) with
    | .error e => .error e
    | .ok t =>
      match a.topology m with
      | .error e => .error e
      | .ok q => .ok (q.map fun v => phase (-(f * norm3 (v - t) / light)))

/-- `horizontal_phase_response`, lines 1059-1071. -/
noncomputable def Array.horizontalPhase (a : Array) (f azimuth elevation : ℝ) (m : Mode) :
    Except PyErr (List ℂ) :=
  let k : Vec3 := ![Real.cos azimuth * Real.cos elevation, Real.sin azimuth * Real.cos elevation,
    Real.sin elevation]
  (a.topology m).map fun q => q.map fun v => phase (f * dot3 k v / light)

/-- `spherical_phase_response`, lines 1130-1141. -/
noncomputable def Array.sphericalPhase (a : Array) (f azimuth zenith : ℝ) (m : Mode) :
    Except PyErr (List ℂ) :=
  let k : Vec3 := ![Real.cos azimuth * Real.sin zenith, Real.sin azimuth * Real.sin zenith,
    Real.cos zenith]
  (a.topology m).map fun q => q.map fun v => phase (f * dot3 k v / light)

/-- First argument of `characteristics`: a `Direction`, or a cartesian position. -/
inductive Target where
  | direction (d : Vec3)
  | position (p : Vec3)

/-- Direction of interest, lines 802-813. -/
noncomputable def Array.direction (a : Array) : Target → Frame → Except PyErr Vec3
  | .position p, .global => fromCartesian (p - translation a.forwards) true
  | .position p, .local => fromCartesian p true
  | .direction d, .global => .ok d
  | .direction d, .local => .ok (rotateDirection a.forwards d)

/-- `antenna.global_characteristics` with its cached transformations, line 834. -/
noncomputable def Array.elementField (a : Array) (ϖ : ℝ) (d : Vec3) (x : Antenna) : Except PyErr (ℝ × ℝ) :=
  match invert (a.forwards * x.pose) with
  | .error e => .error e
  | .ok B => x.element.globalField ϖ (a.forwards * x.pose) B d

/-- A loop over a list which stops at the first exception. -/
def collect {α β : Type} (f : α → Except PyErr β) : List α → Except PyErr (List β)
  | [] => .ok []
  | x :: xs =>
    match f x with
    | .error e => .error e
    | .ok y =>
      match collect f xs with
      | .error e => .error e
      | .ok ys => .ok (y :: ys)

/-- `characteristics`, lines 797-836. -/
noncomputable def Array.characteristics (a : Array) (ϖ : ℝ) (t : Target) (m : Mode) (fr : Frame) :
    Except PyErr (List (ℝ × ℝ)) :=
  match a.direction t fr with
  | .error e => .error e
  | .ok d => collect (a.elementField ϖ d) (a.select m)

/-- `cartesian_array_response`, lines 989-1000. -/
noncomputable def Array.cartesianResponse (a : Array) (ϖ f : ℝ) (position : List ℝ) (fr : Frame) (m : Mode) :
    Except PyErr (List (ℂ × ℂ)) :=
  match vec3 position with
  | .error e => .error e
  | .ok p =>
    match a.cartesianPhase f position fr m with
    | .error e => .error e
    | .ok ph =>
      match a.characteristics ϖ (.position p) m fr with
      | .error e => .error e
      | .ok c => .ok (List.zipWith (fun z g => (z * g.1, z * g.2)) ph c)

/-! ### Topology -/

/-- Rigid transformations. -/
def Rigid (T : Mat4) : Prop := ∃ R p, IsRotation R ∧ T = assemble R p

theorem translation_of (R : Mat3) (p : Vec3) : translation (assemble R p) = p := by
  funext i; fin_cases i <;> simp [translation, assemble]

theorem rigid_mul {S T : Mat4} (hS : Rigid S) (hT : Rigid T) : Rigid (S * T) := by
  obtain ⟨R, p, hR, rfl⟩ := hS
  obtain ⟨R', q, hR', rfl⟩ := hT
  exact ⟨_, _, hR.mul hR', assemble_mul R R' p q⟩

theorem rigid_one : Rigid 1 := ⟨1, 0, ⟨by simp, by simp, by simp⟩, assemble_one.symm⟩

theorem topologyRow_eq {R : Mat3} (hR : IsRotation R) (p : Vec3) (x : Antenna) (hx : Rigid x.pose) :
    topologyRow (assemble R p) (assemble Rᵀ (-(Rᵀ.mulVec p))) x = translation x.pose := by
  obtain ⟨S, q, _, hS⟩ := hx
  have key : (assemble Rᵀ (-(Rᵀ.mulVec p))).mulVec (fun i => (assemble R p * x.pose) i 3) =
      fun i => x.pose i 3 := by
    have h1 : (fun i => (assemble R p * x.pose) i 3) = (assemble R p).mulVec (fun i => x.pose i 3) := by
      funext i; simp [Matrix.mul_apply, Matrix.mulVec, dotProduct]
    rw [h1, mulVec_mulVec, assemble_mul, hR.2.1, add_neg_cancel, assemble_one, one_mulVec]
  unfold topologyRow
  dsimp only
  rw [key]
  rfl

/-- What the modes stand for: a duplex antenna transmits and receives. -/
def Active (m : Mode) (x : Antenna) : Prop :=
  m = .duplex ∨ x.mode = .duplex ∨ x.mode = m

theorem mem_select (a : Array) (m : Mode) (x : Antenna) :
    x ∈ a.select m ↔ x ∈ a.antennas ∧ Active m x := by
  cases m <;> simp [Array.select, Active] <;> intro _ <;> cases x.mode <;> simp

theorem topology_eq (a : Array) (hF : Rigid a.forwards) (hx : ∀ x ∈ a.antennas, Rigid x.pose) (m : Mode) :
    a.topology m = .ok ((a.select m).map fun x => translation x.pose) := by
  obtain ⟨R, p, hR, hF⟩ := hF
  unfold Array.topology
  split
  · rename_i h
    rw [List.length_eq_zero_iff.mp h]; rfl
  · rw [hF, invert_assemble hR]
    refine congrArg Except.ok (List.map_congr_left fun x h => topologyRow_eq hR p x (hx x ?_))
    exact ((mem_select a m x).mp h).1

/-- C80: the topology lists the positions of the antennas with respect to the array, wherever the array is
and however it is turned; for transmission and reception those of the antennas of this or of duplex mode, in
their order within the array. -/
theorem C80_topology (a : Array) (hF : Rigid a.forwards) (hx : ∀ x ∈ a.antennas, Rigid x.pose) (m : Mode) :
    ∃ sel : List Antenna, sel.Sublist a.antennas ∧ (∀ x ∈ a.antennas, x ∈ sel ↔ Active m x) ∧
      (∀ x, Active m x → sel.countP (fun y => decide (y.mode = x.mode)) =
        a.antennas.countP (fun y => decide (y.mode = x.mode))) ∧
      a.topology m = .ok (sel.map fun x => translation x.pose) := by
  refine ⟨a.select m, ?_, fun x h => ?_, fun x h => ?_, topology_eq a hF hx m⟩
  · cases m
    · exact List.filter_sublist
    · exact List.filter_sublist
    · exact List.Sublist.refl _
  · rw [mem_select]; exact ⟨fun h => h.2, fun h' => ⟨h, h'⟩⟩
  · cases m with
    | duplex => rfl
    | tx =>
      simp only [Array.select, List.countP_filter]
      congr 1
      funext y
      rcases h with h | h | h
      · exact absurd h (by simp)
      · rw [h]; cases y.mode <;> simp
      · rw [h]; cases y.mode <;> simp
    | rx =>
      simp only [Array.select, List.countP_filter]
      congr 1
      funext y
      rcases h with h | h | h
      · exact absurd h (by simp)
      · rw [h]; cases y.mode <;> simp
      · rw [h]; cases y.mode <;> simp

/-- An array of a transmitting, a receiving and a duplex antenna, turned about two axes. -/
noncomputable def demo : Array :=
  ⟨assemble (rotationFromRpy ![1, 2, 3]) ![4, 5, 6],
    [⟨.tx, .ideal, assemble 1 ![1, 0, 0]⟩, ⟨.rx, .dipole, assemble 1 ![2, 0, 0]⟩,
      ⟨.duplex, .patch, assemble (rotationFromRpy ![0, 1, 0]) ![3, 0, 0]⟩]⟩

theorem demo_rigid : Rigid demo.forwards ∧ ∀ x ∈ demo.antennas, Rigid x.pose := by
  have h1 : IsRotation (1 : Mat3) := ⟨by simp, by simp, by simp⟩
  refine ⟨⟨_, _, rpy_isRotation _, rfl⟩, fun x hx => ?_⟩
  simp only [demo, List.mem_cons, List.not_mem_nil, or_false] at hx
  rcases hx with rfl | rfl | rfl
  · exact ⟨_, _, h1, rfl⟩
  · exact ⟨_, _, h1, rfl⟩
  · exact ⟨_, _, rpy_isRotation _, rfl⟩

example : demo.topology .tx = .ok [![1, 0, 0], ![3, 0, 0]] := by
  rw [topology_eq demo demo_rigid.1 demo_rigid.2]
  simp [Array.select, demo, translation_of]

/-! ### Phase responses -/

theorem transform_assemble (R : Mat3) (p x : Vec3) :
    transformPosition (assemble R p) x = R.mulVec x + p := by
  funext i
  fin_cases i <;>
    simp [transformPosition, assemble, Matrix.mulVec, dotProduct, Fin.sum_univ_four, Fin.sum_univ_three]

theorem norm3_eq (v : Vec3) : norm3 v = Real.sqrt (dot3 v v) := by
  rw [norm3, dot3]; congr 1; ring

theorem norm3_rotate {R : Mat3} (hR : IsRotation R) (v : Vec3) : norm3 (R.mulVec v) = norm3 v := by
  rw [norm3_eq, norm3_eq, dot3_rotate hR]

theorem phase_norm (x : ℝ) : ‖phase x‖ = 1 := by
  have : phase x = Complex.exp (((2 * Real.pi * x : ℝ) : ℂ) * Complex.I) := by
    rw [phase]; push_cast; rfl
  rw [this, Complex.norm_exp_ofReal_mul_I]

theorem phase_add (x y : ℝ) : phase (x + y) = phase x * phase y := by
  rw [phase, phase, phase, ← Complex.exp_add]
  congr 1; push_cast; ring

/-- C80: the phase response towards a point of space depends on nothing but the distances between the point
and the antennas: one cycle per wavelength `c / f`, in whichever frame the point is given. -/
theorem C80_phase (a : Array) (hF : Rigid a.forwards) (hx : ∀ x ∈ a.antennas, Rigid x.pose) (f : ℝ)
    (x y z : ℝ) (m : Mode) :
    a.cartesianPhase f [x, y, z] .global m = .ok ((a.select m).map fun e =>
      phase (-(f * norm3 (translation (a.forwards * e.pose) - ![x, y, z]) / light))) ∧
    a.cartesianPhase f [x, y, z] .local m = .ok ((a.select m).map fun e =>
      phase (-(f * norm3 (translation (a.forwards * e.pose) -
        transformPosition a.forwards ![x, y, z]) / light))) := by
  have ht := topology_eq a hF hx m
  obtain ⟨R, p, hR, hF⟩ := hF
  have hd : ∀ e ∈ a.select m, ∀ t : Vec3, norm3 (translation e.pose - t) =
      norm3 (translation (a.forwards * e.pose) - transformPosition a.forwards t) := by
    intro e he t
    obtain ⟨S, q, _, hS⟩ := hx e ((mem_select a m e).mp he).1
    rw [hF, hS, assemble_mul, translation_of, translation_of, transform_assemble,
      add_sub_add_right_eq_sub, ← mulVec_sub, norm3_rotate hR]
  constructor
  · unfold Array.cartesianPhase
    simp only [vec3, ht]
    rw [hF, invert_assemble hR]
    simp only [Except.map, List.map_map]
    congr 1
    refine List.map_congr_left fun e he => ?_
    simp only [Function.comp]
    rw [hd e he, hF, transform_assemble R, transform_assemble Rᵀ, mulVec_add, mulVec_mulVec, hR.1,
      one_mulVec, mulVec_neg, mulVec_mulVec, hR.1, one_mulVec]
    congr 6
    simp
  · unfold Array.cartesianPhase
    simp only [vec3, ht, List.map_map]
    congr 1
    refine List.map_congr_left fun e he => ?_
    simp only [Function.comp]
    rw [hd e he]

/-- C80: points are refused exactly if they do not have three coordinates, and all phases have unit
magnitude. -/
theorem C80_phase_unit (a : Array) (hF : Rigid a.forwards) (hx : ∀ x ∈ a.antennas, Rigid x.pose) (f : ℝ)
    (pos : List ℝ) (fr : Frame) (m : Mode) :
    (pos.length ≠ 3 → a.cartesianPhase f pos fr m = .error .value) ∧
    (pos.length = 3 → ∃ l, a.cartesianPhase f pos fr m = .ok l ∧ l.length = (a.select m).length ∧
      ∀ z ∈ l, ‖z‖ = 1) := by
  constructor
  · intro h
    have : vec3 pos = .error .value := by
      match pos, h with
      | [], _ => rfl
      | [_], _ => rfl
      | [_, _], _ => rfl
      | [_, _, _], h => exact absurd rfl h
      | _ :: _ :: _ :: _ :: _, _ => rfl
    simp only [Array.cartesianPhase, this]
  · intro h
    obtain ⟨x, y, z, rfl⟩ : ∃ x y z, pos = [x, y, z] := by
      match pos, h with
      | [x, y, z], _ => exact ⟨x, y, z, rfl⟩
    have key := C80_phase a hF hx f x y z m
    cases fr
    · exact ⟨_, key.2, by simp, fun z hz => by
        obtain ⟨e, _, rfl⟩ := List.mem_map.mp hz
        exact phase_norm _⟩
    · exact ⟨_, key.1, by simp, fun z hz => by
        obtain ⟨e, _, rfl⟩ := List.mem_map.mp hz
        exact phase_norm _⟩

/-- C80: responses to horizontal and spherical angles agree, elevation being the complement of zenith. -/
theorem C80_horizontal (a : Array) (f azimuth elevation : ℝ) (m : Mode) :
    a.horizontalPhase f azimuth elevation m =
      a.sphericalPhase f azimuth (Real.pi / 2 - elevation) m := by
  simp only [Array.horizontalPhase, Array.sphericalPhase, Real.sin_pi_div_two_sub,
    Real.cos_pi_div_two_sub]

theorem dot3_le (a b : Vec3) : |dot3 a b| ≤ norm3 a * norm3 b := by
  rw [norm3, norm3, ← Real.sqrt_mul (by positivity)]
  apply Real.abs_le_sqrt
  simp only [dot3]
  nlinarith [sq_nonneg (a 0 * b 1 - a 1 * b 0), sq_nonneg (a 0 * b 2 - a 2 * b 0),
    sq_nonneg (a 1 * b 2 - a 2 * b 1)]

/-- Distance to a point far away in direction `u`. -/
theorem far_distance (u q : Vec3) (hu : IsUnitVec u) {r : ℝ} (hr : 0 < r) :
    |norm3 (q - r • u) - r + dot3 u q| ≤ 2 * norm3 q ^ 2 / r := by
  have hu1 : norm3 u = 1 := by rw [norm3]; unfold IsUnitVec at hu; rw [hu, Real.sqrt_one]
  have hs : |dot3 u q| ≤ norm3 q := by simpa [hu1] using dot3_le u q
  have hq0 : 0 ≤ norm3 q := Real.sqrt_nonneg _
  have ha0 : 0 ≤ norm3 (q - r • u) := Real.sqrt_nonneg _
  have ha : norm3 (q - r • u) ^ 2 = r ^ 2 - 2 * r * dot3 u q + norm3 q ^ 2 := by
    rw [norm3_sq, norm3_sq]
    unfold IsUnitVec at hu
    simp only [dot3, Pi.sub_apply, Pi.smul_apply, smul_eq_mul]
    linear_combination r ^ 2 * hu
  generalize norm3 (q - r • u) = A at *
  generalize dot3 u q = s at *
  generalize norm3 q = Q at *
  obtain ⟨hs1, hs2⟩ := abs_le.mp hs
  have h1 : A ≤ r + Q := by
    have : A ^ 2 ≤ (r + Q) ^ 2 := by rw [ha]; nlinarith
    exact abs_le_of_sq_le_sq' this (by positivity) |>.2
  have h2 : r - Q ≤ A := by
    by_contra h
    have : A ^ 2 < (r - Q) ^ 2 := by nlinarith
    rw [ha] at this; nlinarith
  have hA : 0 < A + r := by linarith
  have key : (A - r + s) * (A + r) = s * (A - r) + Q ^ 2 := by nlinarith [ha]
  have hb : |s * (A - r) + Q ^ 2| ≤ 2 * Q ^ 2 := by
    have : |A - r| ≤ Q := abs_le.mpr ⟨by linarith, by linarith⟩
    calc |s * (A - r) + Q ^ 2| ≤ |s * (A - r)| + |Q ^ 2| := abs_add_le _ _
      _ = |s| * |A - r| + Q ^ 2 := by rw [abs_mul, abs_of_nonneg (sq_nonneg Q)]
      _ ≤ Q * Q + Q ^ 2 := by
          have := mul_le_mul hs this (abs_nonneg _) hq0
          linarith
      _ = 2 * Q ^ 2 := by ring
  rw [← key, abs_mul, abs_of_pos hA] at hb
  rw [le_div_iff₀ hr]
  have : |A - r + s| * r ≤ |A - r + s| * (A + r) :=
    mul_le_mul_of_nonneg_left (by linarith) (abs_nonneg _)
  linarith

theorem phase_dist (x y : ℝ) : ‖phase x - phase y‖ ≤ 2 * Real.pi * |x - y| := by
  have h : phase x - phase y = phase y * (phase (x - y) - 1) := by
    rw [mul_sub, ← phase_add, mul_one]; congr 2; ring
  have h2 : phase (x - y) = Complex.exp (Complex.I * ((2 * Real.pi * (x - y) : ℝ) : ℂ)) := by
    rw [phase]; push_cast; congr 1; ring
  rw [h, norm_mul, phase_norm, one_mul, h2]
  refine (Real.norm_exp_I_mul_ofReal_sub_one_le).trans (le_of_eq ?_)
  rw [Real.norm_eq_abs, abs_mul, abs_of_pos (by positivity)]

/-- C80: the spherical response is the far field of the cartesian one.  Towards a point at distance `r` in the
given direction of the array's frame, both differ, up to the phase of the distance `r` itself which is common
to all antennas, by at most the phase of `2 |q|² / r` for an antenna at `q`; so the difference vanishes with
growing distance. -/
theorem C80_far_field (a : Array) (hF : Rigid a.forwards) (hx : ∀ x ∈ a.antennas, Rigid x.pose) (f : ℝ)
    (azimuth zenith : ℝ) (m : Mode) (r : ℝ) (hr : 0 < r) :
    ∃ near far : List ℂ,
      a.cartesianPhase f [r * (Real.cos azimuth * Real.sin zenith), r * (Real.sin azimuth * Real.sin zenith),
        r * Real.cos zenith] .local m = .ok near ∧
      a.sphericalPhase f azimuth zenith m = .ok far ∧
      near.length = (a.select m).length ∧ far.length = (a.select m).length ∧
      ∀ (i : Nat) (h0 : i < (a.select m).length) (h1 : i < near.length) (h2 : i < far.length),
        ‖near[i] * phase (f * r / light) - far[i]‖ ≤
          2 * Real.pi * |f| / light * (2 * norm3 (translation (a.select m)[i].pose) ^ 2 / r) := by
  have ht := topology_eq a hF hx m
  set u : Vec3 := ![Real.cos azimuth * Real.sin zenith, Real.sin azimuth * Real.sin zenith,
    Real.cos zenith] with hu
  have huu : IsUnitVec u := by
    have h1 := Real.sin_sq_add_cos_sq azimuth
    have h2 := Real.sin_sq_add_cos_sq zenith
    simp only [IsUnitVec, hu, Matrix.cons_val]
    linear_combination (Real.sin zenith) ^ 2 * h1 + h2
  have hru : (![r * (Real.cos azimuth * Real.sin zenith), r * (Real.sin azimuth * Real.sin zenith),
      r * Real.cos zenith] : Vec3) = r • u := by
    funext i; fin_cases i <;> simp [hu]
  refine ⟨(a.select m).map fun x => phase (-(f * norm3 (translation x.pose - r • u) / light)),
    (a.select m).map fun x => phase (f * dot3 u (translation x.pose) / light), ?_, ?_, by simp, by simp, ?_⟩
  · simp only [Array.cartesianPhase, vec3, ht, hru, List.map_map]
    rfl
  · simp only [Array.sphericalPhase, ht, Except.map, List.map_map]
    rfl
  · intro i h0 h1 h2
    simp only [List.getElem_map]
    set q := translation (a.select m)[i].pose
    rw [← phase_add]
    refine (phase_dist _ _).trans ?_
    have e : -(f * norm3 (q - r • u) / light) + f * r / light - f * dot3 u q / light =
        -(f / light) * (norm3 (q - r • u) - r + dot3 u q) := by ring
    have hl : (0 : ℝ) < light := by norm_num [light]
    rw [e, abs_mul, abs_neg, abs_div, abs_of_pos hl]
    have := far_distance u q huu hr
    calc 2 * Real.pi * (|f| / light * |norm3 (q - r • u) - r + dot3 u q|)
        = 2 * Real.pi * |f| / light * |norm3 (q - r • u) - r + dot3 u q| := by ring
      _ ≤ _ := mul_le_mul_of_nonneg_left this (by positivity)

/-- C80 fails for the documented sign of the cartesian response, lines 896-899: one metre away, at a quarter
of the wavelength, the documented factor is `j` and the returned one is its conjugate. -/
theorem C80_sign_fails :
    let a : Array := ⟨1, [⟨.duplex, .ideal, 1⟩]⟩
    let f := light / 4
    a.cartesianPhase f [1, 0, 0] .local .duplex = .ok [-Complex.I] ∧
      Complex.exp (Complex.I * (2 * Real.pi * f / light * norm3 (![1, 0, 0] - 0) : ℝ)) = Complex.I := by
  have hl : light ≠ 0 := by norm_num [light]
  have hn : norm3 (![1, 0, 0] : Vec3) = 1 := by simp [norm3]
  have hn' : norm3 (0 - ![1, 0, 0] : Vec3) = 1 := by simp [norm3]
  intro a f
  constructor
  · have ht := topology_eq a rigid_one (by simp [a, rigid_one]) .duplex
    have h0 : translation (1 : Mat4) = 0 := by
      funext i; fin_cases i <;> simp [translation]
    simp only [Array.cartesianPhase, vec3, ht]
    simp only [a, Array.select, List.map_cons, List.map_nil, h0, hn']
    congr 2
    have : -(f * 1 / light) = -(1 / 4) := by simp only [f]; field_simp
    rw [this, phase]
    have : 2 * (Real.pi : ℂ) * ((-(1 / 4) : ℝ) : ℂ) * Complex.I = -(Real.pi / 2 * Complex.I) := by
      push_cast; ring
    rw [this, Complex.exp_neg, Complex.exp_pi_div_two_mul_I, Complex.inv_I]
  · have : 2 * Real.pi * f / light * norm3 ((![1, 0, 0] : Vec3) - 0) = Real.pi / 2 := by
      rw [sub_zero, hn]; simp only [f]; field_simp; norm_num
    rw [this]
    have : Complex.I * ((Real.pi / 2 : ℝ) : ℂ) = Real.pi / 2 * Complex.I := by push_cast; ring
    rw [this, Complex.exp_pi_div_two_mul_I]

/-! ### Characteristics -/

theorem fromCartesian_norm {v : Vec3} (h : v ≠ 0) : fromCartesian v true = .ok (scale v (norm3 v)) := by
  simp only [fromCartesian, if_true]
  change (if norm3 v = 0 then _ else _) = _
  rw [if_neg (norm3_ne h).ne']
  rfl

theorem fromCartesian_unit {v : Vec3} (h : IsUnitVec v) : fromCartesian v true = .ok v := by
  have h1 : norm3 v = 1 := by rw [norm3]; unfold IsUnitVec at h; rw [h, Real.sqrt_one]
  have h0 : v ≠ 0 := by rintro rfl; simp [norm3] at h1
  rw [fromCartesian_norm h0, h1]
  congr 1
  funext i; simp [scale]

theorem collect_ok {α β : Type} {f : α → Except PyErr β} {g : α → β} :
    ∀ {l : List α}, (∀ x ∈ l, f x = .ok (g x)) → collect f l = .ok (l.map g)
  | [], _ => rfl
  | x :: xs, h => by
    rw [collect, h x (by simp), collect_ok (l := xs) fun y hy => h y (by simp [hy])]
    rfl

theorem collect_congr {α β : Type} {f g : α → Except PyErr β} :
    ∀ {l : List α}, (∀ x ∈ l, f x = g x) → collect f l = collect g l
  | [], _ => rfl
  | x :: xs, h => by
    rw [collect, collect, h x (by simp), collect_congr (l := xs) fun y hy => h y (by simp [hy])]

/-- C80: characteristics towards a direction of space.  Each selected antenna, in its order, contributes the
field of its model in the direction seen from the antenna, turned with antenna and array. -/
theorem C80_characteristics (a : Array) {R : Mat3} (hR : IsRotation R) (p : Vec3)
    (hF : a.forwards = assemble R p) (ϖ : ℝ) {d : Vec3} (hd : IsUnitVec d) (m : Mode)
    (S : Antenna → Mat3) (q : Antenna → Vec3)
    (hS : ∀ x ∈ a.select m, IsRotation (S x) ∧ x.pose = assemble (S x) (q x))
    (c : Antenna → ℝ × ℝ)
    (hc : ∀ x ∈ a.select m, x.element.field ϖ (toSpherical ((R * S x)ᵀ.mulVec d)).1
      (toSpherical ((R * S x)ᵀ.mulVec d)).2 = .ok (c x)) :
    ∃ g : Antenna → ℝ × ℝ, a.characteristics ϖ (.direction d) m .global = .ok ((a.select m).map g) ∧
      ∀ x ∈ a.select m,
        (∀ i, (g x).1 * zenithUnit (toSpherical d).1 (toSpherical d).2 i +
            (g x).2 * azimuthUnit (toSpherical d).1 i =
          (R * S x).mulVec (fun j => (c x).1 * zenithUnit (toSpherical ((R * S x)ᵀ.mulVec d)).1
            (toSpherical ((R * S x)ᵀ.mulVec d)).2 j +
            (c x).2 * azimuthUnit (toSpherical ((R * S x)ᵀ.mulVec d)).1 j) i) ∧
        (g x).1 ^ 2 + (g x).2 ^ 2 = (c x).1 ^ 2 + (c x).2 ^ 2 := by
  have key : ∀ x : Antenna, ∃ g : ℝ × ℝ, x ∈ a.select m → a.elementField ϖ d x = .ok g ∧
      (∀ i, g.1 * zenithUnit (toSpherical d).1 (toSpherical d).2 i +
            g.2 * azimuthUnit (toSpherical d).1 i =
          (R * S x).mulVec (fun j => (c x).1 * zenithUnit (toSpherical ((R * S x)ᵀ.mulVec d)).1
            (toSpherical ((R * S x)ᵀ.mulVec d)).2 j +
            (c x).2 * azimuthUnit (toSpherical ((R * S x)ᵀ.mulVec d)).1 j) i) ∧
        g.1 ^ 2 + g.2 ^ 2 = (c x).1 ^ 2 + (c x).2 ^ 2 := by
    intro x
    by_cases hx : x ∈ a.select m
    · obtain ⟨B, g, h1, h2, h3, h4⟩ := C79_rotation ϖ x.element (hR.mul (hS x hx).1)
        (R.mulVec (q x) + p) hd _ _ rfl (c x) (hc x hx)
      refine ⟨g, fun _ => ⟨?_, h3, h4⟩⟩
      rw [Array.elementField, hF, (hS x hx).2, assemble_mul, h1]
      exact h2
    · exact ⟨0, fun h => absurd h hx⟩
  choose g hg using key
  exact ⟨g, collect_ok fun x hx => (hg x hx).1, fun x hx => (hg x hx).2⟩

example : ∀ x ∈ demo.select .tx, ∃ S q, IsRotation S ∧ x.pose = assemble S q :=
  fun x hx => demo_rigid.2 x ((mem_select demo .tx x).mp hx).1

/-- C80: a direction in the frame of the array, the same direction in space, and any point of space in that
direction from the array yield the same characteristics; only the point at the array itself is refused. -/
theorem C80_directions (a : Array) {R : Mat3} (_hR : IsRotation R) (p : Vec3) (hF : a.forwards = assemble R p)
    (ϖ : ℝ) (m : Mode) {d : Vec3} (hd : IsUnitVec d) (r : ℝ) (hr : 0 < r) :
    a.characteristics ϖ (.direction d) m .local = a.characteristics ϖ (.direction (R.mulVec d)) m .global ∧
    a.characteristics ϖ (.position (p + r • d)) m .global = a.characteristics ϖ (.direction d) m .global ∧
    a.characteristics ϖ (.position p) m .global = .error .value := by
  have hn : norm3 (r • d) = r := by
    rw [norm3]
    have : (r • d) 0 ^ 2 + (r • d) 1 ^ 2 + (r • d) 2 ^ 2 = r ^ 2 := by
      unfold IsUnitVec at hd
      simp only [Pi.smul_apply, smul_eq_mul]
      linear_combination r ^ 2 * hd
    rw [this, Real.sqrt_sq hr.le]
  refine ⟨?_, ?_, ?_⟩
  · simp only [Array.characteristics, Array.direction, hF, rotateDirection, rot_assemble]
  · have : fromCartesian (p + r • d - p) true = .ok d := by
      rw [add_sub_cancel_left]
      simp only [fromCartesian, if_true]
      change (if norm3 (r • d) = 0 then _ else _) = _
      rw [hn, if_neg hr.ne']
      congr 1
      funext i
      change r • d i / norm3 (r • d) = d i
      rw [hn, smul_eq_mul]; field_simp
    simp only [Array.characteristics, Array.direction, hF, translation_of, this]
  · have : fromCartesian (p - p) true = .error .value := by simp [fromCartesian]
    simp only [Array.characteristics, Array.direction, hF, translation_of, this]

/-- C80 for points in the frame of an array which is moved but not turned: the response to the point is the
same in both frames.  Missing for the full claim: `C80_local_point_fails`. -/
theorem C80_local_point_partial (a : Array) (p : Vec3) (hF : a.forwards = assemble 1 p)
    (hx : ∀ x ∈ a.antennas, Rigid x.pose) (ϖ f x y z : ℝ) (m : Mode) :
    a.cartesianResponse ϖ f [x, y, z] .local m =
      a.cartesianResponse ϖ f [x + p 0, y + p 1, z + p 2] .global m := by
  have h1 : IsRotation (1 : Mat3) := ⟨by simp, by simp, by simp⟩
  have hF' : Rigid a.forwards := ⟨1, p, h1, hF⟩
  have hv : (![x + p 0, y + p 1, z + p 2] : Vec3) = ![x, y, z] + p := by
    funext i; fin_cases i <;> rfl
  unfold Array.cartesianResponse
  simp only [vec3, (C80_phase a hF' hx f x y z m).2, (C80_phase a hF' hx f _ _ _ m).1, hv]
  have ht : transformPosition a.forwards ![x, y, z] = ![x, y, z] + p := by
    rw [hF, transform_assemble, one_mulVec]
  rw [ht]
  simp only [Array.characteristics, Array.direction, hF, translation_of, add_sub_cancel_right]

/-- C80 fails for points in the frame of an array which is turned: `characteristics` takes the direction of
the point in the array's frame for one in space.  On an array rolled by ninety degrees, a point on the axis of
its dipole is answered with full gain if given in the array's frame, and with zero if given in space. -/
theorem C80_local_point_fails (p : Vec3) (f : ℝ) :
    let a : Array := ⟨assemble (rotationFromRpy ![Real.pi / 2, 0, 0]) p, [⟨.duplex, .dipole, 1⟩]⟩
    transformPosition a.forwards ![0, 0, 1] = ![p 0, p 1 - 1, p 2] ∧
    (∃ z w : ℂ, a.cartesianResponse Real.pi f [0, 0, 1] .local .duplex = .ok [(z, w)] ∧
      ‖z‖ ^ 2 + ‖w‖ ^ 2 = 1) ∧
    a.cartesianResponse Real.pi f [p 0, p 1 - 1, p 2] .global .duplex = .ok [(0, 0)] := by
  set R := rotationFromRpy ![Real.pi / 2, 0, 0] with hRd
  have hR : IsRotation R := rpy_isRotation _
  intro a
  have hRz : R.mulVec ![0, 0, 1] = ![0, -1, 0] := by
    funext i
    fin_cases i <;> simp [hRd, rotationFromRpy, Matrix.mulVec, dotProduct, Fin.sum_univ_three]
  have hTz : Rᵀ.mulVec ![0, 0, 1] = ![0, 1, 0] := by
    funext i
    fin_cases i <;> simp [hRd, rotationFromRpy, Matrix.mulVec, dotProduct, Fin.sum_univ_three]
  have hTy : Rᵀ.mulVec ![0, -1, 0] = ![0, 0, 1] := by
    rw [← hRz, mulVec_mulVec, hR.2.1, one_mulVec]
  have hp : transformPosition a.forwards ![0, 0, 1] = ![p 0, p 1 - 1, p 2] := by
    rw [transform_assemble, hRz]
    funext i; fin_cases i <;> simp; ring
  have hF : Rigid a.forwards := ⟨R, p, hR, rfl⟩
  have hx : ∀ x ∈ a.antennas, Rigid x.pose := by simp [a, rigid_one]
  have hu1 : IsUnitVec ![0, 0, 1] := by simp [IsUnitVec]
  have hu2 : IsUnitVec ![0, -1, 0] := by simp [IsUnitVec]
  have hsel : a.select .duplex = [⟨.duplex, .dipole, 1⟩] := rfl
  refine ⟨hp, ?_, ?_⟩
  · obtain ⟨B, g, h1, h2, _, _, _, h5⟩ := C79_dipole hR p hu1 (by rw [hTz]; simp)
    have hg := h5.mpr (by rw [hTz]; simp)
    have hc : a.characteristics Real.pi (.position ![0, 0, 1]) .duplex .local = .ok [g] := by
      have : fromCartesian ![0, 0, 1] true = .ok ![0, 0, 1] := fromCartesian_unit hu1
      simp only [Array.characteristics, Array.direction, this, hsel, collect, Array.elementField, a, mul_one,
        h1, h2]
    refine ⟨phase (-(f * norm3 (translation (a.forwards * 1) - transformPosition a.forwards ![0, 0, 1]) /
        light)) * g.1,
      phase (-(f * norm3 (translation (a.forwards * 1) - transformPosition a.forwards ![0, 0, 1]) /
        light)) * g.2, ?_, ?_⟩
    · simp only [Array.cartesianResponse, vec3, (C80_phase a hF hx f 0 0 1 .duplex).2, hc, hsel]
      rfl
    · rw [norm_mul, norm_mul, phase_norm, one_mul, one_mul, Complex.norm_real, Complex.norm_real,
        Real.norm_eq_abs, Real.norm_eq_abs, sq_abs, sq_abs, hg]
  · obtain ⟨B, g, h1, h2, _, h4, _, _⟩ := C79_dipole hR p hu2 (by rw [hTy]; simp; norm_num)
    have hg := h4 (by rw [hTy]; simp)
    have hc : a.characteristics Real.pi (.position ![p 0, p 1 - 1, p 2]) .duplex .global = .ok [(0, 0)] := by
      have e : (![p 0, p 1 - 1, p 2] : Vec3) - p = ![0, -1, 0] := by
        funext i; fin_cases i <;> simp
      have : fromCartesian ![0, -1, 0] true = .ok ![0, -1, 0] := fromCartesian_unit hu2
      rw [hg] at h2
      simp only [Array.characteristics, Array.direction, hsel, collect, Array.elementField, a, mul_one,
        translation_of, e, this, h1, h2]
    simp only [Array.cartesianResponse, vec3, (C80_phase a hF hx f _ _ _ .duplex).1, hc, hsel]
    simp

/-- C80: in space, the array response is the phase response times the characteristics, antenna by antenna. -/
theorem C80_response (a : Array) (hF : Rigid a.forwards) (hx : ∀ x ∈ a.antennas, Rigid x.pose) (ϖ f x y z : ℝ)
    (m : Mode) (g : Antenna → ℝ × ℝ) (hr : ![x, y, z] ≠ translation a.forwards)
    (hg : a.characteristics ϖ (.direction (scale (![x, y, z] - translation a.forwards)
      (norm3 (![x, y, z] - translation a.forwards)))) m .global = .ok ((a.select m).map g)) :
    a.cartesianResponse ϖ f [x, y, z] .global m = .ok ((a.select m).map fun e =>
      (phase (-(f * norm3 (translation (a.forwards * e.pose) - ![x, y, z]) / light)) * (g e).1,
        phase (-(f * norm3 (translation (a.forwards * e.pose) - ![x, y, z]) / light)) * (g e).2)) := by
  have hne : ![x, y, z] - translation a.forwards ≠ 0 := sub_ne_zero.mpr hr
  have hfc : fromCartesian (![x, y, z] - translation a.forwards) true =
      .ok (scale (![x, y, z] - translation a.forwards) (norm3 (![x, y, z] - translation a.forwards))) :=
    fromCartesian_norm hne
  have hc : a.characteristics ϖ (.position ![x, y, z]) m .global = .ok ((a.select m).map g) := by
    rw [← hg]
    simp only [Array.characteristics, Array.direction, hfc]
  simp only [Array.cartesianResponse, vec3, (C80_phase a hF hx f x y z m).1, hc]
  congr 1
  rw [List.zipWith_map, List.zipWith_self]

end Verif.Core.Ant
