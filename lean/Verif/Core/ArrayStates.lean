import Verif.Core.AntennaArrays
import Verif.Core.Kinematics

/-!
# C81: uniform and custom antenna arrays, their states, copies and storage

`UniformArray`, `CustomAntennaArray`, `AntennaArrayState` and `AntennaArray.state` in
`hermespy/core/antennas.py` 1144-1485, the simulated antennas and arrays of
`hermespy/simulation/antennas.py`.
-/

namespace Verif.Core.Ant

open Matrix Verif.Core

/-- An antenna object: the antenna, and the weight of a `SimulatedAntenna` (`simulation/antennas.py` 45-84);
other antennas have neither a weight nor `transmit` and `receive`. -/
structure Elem where
  antenna : Antenna
  weight : Option ℂ

/-- `copy`: `core/antennas.py` 432-433, 506-507, 553-554, 607-608; `simulation/antennas.py` 198-200, 235-237,
268-270.  `SimulatedDipole` has no `copy` of its own and inherits the one of `Dipole`. -/
def Elem.copy (e : Elem) : Elem :=
  match e.antenna.element with
  | .dipole => { e with weight := none }
  | _ => e

/-- A number of antennas: an integer, or an integral floating point number. -/
inductive Num where
  | int (n : Int)
  | float (n : Int)
  deriving DecidableEq, Repr

def Num.val : Num → Int
  | .int n => n
  | .float n => n

/-- `UniformArray`, `core/antennas.py` 1299-1339. -/
structure Uniform where
  element : Elem
  spacing : ℝ
  dims : List Num
  antennas : List Elem

/-- Assignment of the translation of a pose, `core/transformation.py` 133-139. -/
def setTranslation (T : Mat4) (v : Vec3) : Mat4 := fun i j =>
  if h : j = 3 ∧ i.val < 3 then v ⟨i.val, h.2⟩ else T i j

/-- Grid coordinates in the order of the flattened `np.meshgrid` with its default `xy` indexing,
`core/antennas.py` 1344-1351: second coordinate first, then the first, then the third. -/
def gridOrder (nx ny nz : Nat) : List (Nat × Nat × Nat) :=
  (List.range ny).flatMap fun y => (List.range nx).flatMap fun x => (List.range nz).map fun z => (x, y, z)

/-- A copy of the element at a grid position, 1352-1355. -/
noncomputable def placed (e : Elem) (s : ℝ) (g : Nat × Nat × Nat) : Elem :=
  { e.copy with antenna := { e.copy.antenna with
      pose := setTranslation e.copy.antenna.pose ![s * g.1, s * g.2.1, s * g.2.2] } }

/-- `__update_elements`, 1341-1355. -/
noncomputable def Uniform.update (u : Uniform) : Uniform × Except PyErr Unit :=
  match u.dims with
  | nx :: ny :: nz :: _ =>
    ({ u with antennas := (gridOrder nx.val.toNat ny.val.toNat nz.val.toNat).map (placed u.element u.spacing) },
      .ok ())
  | _ => (u, .error .index)

/-- `spacing` setter, 1369-1375. -/
noncomputable def Uniform.setSpacing (u : Uniform) (v : ℝ) : Uniform × Except PyErr Unit :=
  if v ≤ 0 then (u, .error .value) else { u with spacing := v }.update

/-- `dimensions` setter, 1392-1410; a single integer is the tuple of it. -/
noncomputable def Uniform.setDims (u : Uniform) (v : List Num) : Uniform × Except PyErr Unit :=
  match v with
  | [x] => { u with dims := [x, .int 1, .int 1] }.update
  | [x, y] => { u with dims := [x, y, .int 1] }.update
  | _ => if v.length > 3 then (u, .error .value) else { u with dims := v }.update

/-- `UniformArray.__init__`, 1330-1339. -/
noncomputable def Uniform.create (e : Elem) (spacing : ℝ) (dims : List Num) : Except PyErr Uniform :=
  let u0 : Uniform := ⟨e, 0, [.int 0, .int 0, .int 0], []⟩
  match u0.setSpacing spacing with
  | (_, .error x) => .error x
  | (u1, .ok _) =>
    match u1.setDims dims with
    | (_, .error x) => .error x
    | (u2, .ok _) => .ok u2

/-- Product of two numbers. -/
def Num.mul : Num → Num → Num
  | .int a, .int b => .int (a * b)
  | a, b => .float (a.val * b.val)

/-- `num_antennas`, 1382-1384. -/
def Uniform.numAntennas (u : Uniform) : Except PyErr Num :=
  match u.dims with
  | nx :: ny :: nz :: _ => .ok ((nx.mul ny).mul nz)
  | _ => .error .index

/-- `np.empty((num_antennas, 2))`, 818, the result of `characteristics` in duplex mode before its rows are
filled. -/
def Uniform.allocate (u : Uniform) : Except PyErr Nat :=
  match u.numAntennas with
  | .error e => .error e
  | .ok (.float _) => .error .type
  | .ok (.int n) => if n < 0 then .error .value else .ok n.toNat

/-! ### Uniform arrays -/

theorem flatMap_range {α : Type} (a b : Nat) (f : Nat → Nat → α) :
    ((List.range a).flatMap fun i => (List.range b).map (f i)) =
      (List.range (a * b)).map fun k => f (k / b) (k % b) := by
  induction a with
  | zero => simp
  | succ a ih =>
    rw [List.range_succ, List.flatMap_append, ih, Nat.succ_mul, List.range_add, List.map_append]
    congr 1
    simp only [List.flatMap_cons, List.flatMap_nil, List.append_nil, List.map_map]
    refine List.map_congr_left fun k hk => ?_
    have hk : k < b := List.mem_range.mp hk
    have hb : 0 < b := by omega
    simp only [Function.comp]
    rw [show a * b + k = k + b * a by ring, Nat.add_mul_div_left _ _ hb, Nat.add_mul_mod_self_left,
      Nat.div_eq_of_lt hk, Nat.mod_eq_of_lt hk, Nat.zero_add]

theorem gridOrder_eq (nx ny nz : Nat) : gridOrder nx ny nz =
    (List.range (ny * (nx * nz))).map fun k => (k % (nx * nz) / nz, k / (nx * nz), k % (nx * nz) % nz) := by
  unfold gridOrder
  have h : ∀ y : Nat, ((List.range nx).flatMap fun x => (List.range nz).map fun z => (x, y, z)) =
      (List.range (nx * nz)).map fun k => (k / nz, y, k % nz) := by
    intro y
    exact flatMap_range nx nz (fun x z => (x, y, z))
  simp only [h]
  exact flatMap_range ny (nx * nz) (fun y k => (k / nz, y, k % nz))

theorem translation_setTranslation (T : Mat4) (v : Vec3) : translation (setTranslation T v) = v := by
  funext i; fin_cases i <;> simp [translation, setTranslation]

theorem rot_setTranslation (T : Mat4) (v : Vec3) : rot (setTranslation T v) = rot T := by
  ext i j; fin_cases i <;> fin_cases j <;> simp [rot, setTranslation]

theorem copy_antenna (e : Elem) : e.copy.antenna = e.antenna := by
  unfold Elem.copy; split <;> rfl

/-- Grid coordinates of the antenna with a given index. -/
def coords (nx nz i : Nat) : Nat × Nat × Nat :=
  (i % (nx * nz) / nz, i / (nx * nz), i % (nx * nz) % nz)

theorem create_eq (e : Elem) (s : ℝ) (hs : 0 < s) (nx ny nz : Nat) :
    Uniform.create e s [.int nx, .int ny, .int nz] =
      .ok ⟨e, s, [.int nx, .int ny, .int nz],
        (List.range (ny * (nx * nz))).map fun i => placed e s (coords nx nz i)⟩ := by
  have h : ¬ s ≤ 0 := not_le.mpr hs
  simp [Uniform.create, Uniform.setSpacing, h, Uniform.setDims, Uniform.update, Num.val, gridOrder_eq]
  intro i _
  rw [coords, Nat.mod_mul_left_mod]

/-- C81: a uniform array holds one antenna per grid point: `nx ny nz` antennas, as many as it reports; the
antenna with index `(y nx + x) nz + z` is at `spacing (x, y, z)`, with mode, model and orientation of the
element. -/
theorem C81_uniform (e : Elem) (s : ℝ) (hs : 0 < s) (nx ny nz : Nat) :
    ∃ u, Uniform.create e s [.int nx, .int ny, .int nz] = .ok u ∧
      u.antennas.length = nx * ny * nz ∧ u.numAntennas = .ok (.int (nx * ny * nz)) ∧
      u.allocate = .ok u.antennas.length ∧
      ∀ x y z, x < nx → y < ny → z < nz → ∃ a, u.antennas[(y * nx + x) * nz + z]? = some a ∧
        translation a.antenna.pose = ![s * x, s * y, s * z] ∧ rot a.antenna.pose = rot e.antenna.pose ∧
        a.antenna.mode = e.antenna.mode ∧ a.antenna.element = e.antenna.element := by
  refine ⟨_, create_eq e s hs nx ny nz, ?_, ?_, ?_, ?_⟩
  · simp only [List.length_map, List.length_range]; ring
  · simp [Uniform.numAntennas, Num.mul]
  · simp only [Uniform.allocate, Uniform.numAntennas, Num.mul, List.length_map, List.length_range]
    rw [if_neg (not_lt.mpr (by positivity))]
    congr 1
    have : ((nx : Int) * ny * nz) = ((ny * (nx * nz) : Nat) : Int) := by push_cast; ring
    rw [this, Int.toNat_natCast]
  · intro x y z hx hy hz
    have hin : x * nz + z < nx * nz := by nlinarith
    have hi : (y * nx + x) * nz + z = x * nz + z + nx * nz * y := by ring
    have hlt : (y * nx + x) * nz + z < ny * (nx * nz) := by
      rw [hi]
      have : nx * nz * y + nx * nz ≤ ny * (nx * nz) := by
        calc nx * nz * y + nx * nz = (y + 1) * (nx * nz) := by ring
          _ ≤ ny * (nx * nz) := Nat.mul_le_mul_right _ hy
      omega
    have hc : coords nx nz ((y * nx + x) * nz + z) = (x, y, z) := by
      have h0 : 0 < nx * nz := by omega
      have hz0 : 0 < nz := by omega
      unfold coords
      rw [hi, Nat.add_mul_mod_self_left, Nat.mod_eq_of_lt hin, Nat.add_mul_div_left _ _ h0,
        Nat.div_eq_of_lt hin, show x * nz + z = z + nz * x by ring, Nat.add_mul_div_left _ _ hz0,
        Nat.div_eq_of_lt hz, Nat.add_mul_mod_self_left, Nat.mod_eq_of_lt hz]
      simp
    refine ⟨placed e s (x, y, z), ?_, ?_, ?_, ?_, ?_⟩
    · rw [List.getElem?_map, List.getElem?_range hlt]
      simp only [Option.map_some, hc]
    · simp only [placed, translation_setTranslation]
    · simp only [placed, rot_setTranslation, copy_antenna]
    · simp only [placed, copy_antenna]
    · simp only [placed, copy_antenna]

/-- C81: missing dimensions are single ones, and antennas of a uniform array are at least the spacing apart. -/
theorem C81_spacing (e : Elem) (s : ℝ) (hs : 0 < s) (nx ny nz : Nat) :
    Uniform.create e s [.int nx] = Uniform.create e s [.int nx, .int 1, .int 1] ∧
    Uniform.create e s [.int nx, .int ny] = Uniform.create e s [.int nx, .int ny, .int 1] ∧
    ∃ u, Uniform.create e s [.int nx, .int ny, .int nz] = .ok u ∧
      ∀ (i j : Nat) (hi : i < u.antennas.length) (hj : j < u.antennas.length), i ≠ j →
        s ≤ norm3 (translation u.antennas[i].antenna.pose - translation u.antennas[j].antenna.pose) := by
  have h : ¬ s ≤ 0 := not_le.mpr hs
  refine ⟨?_, ?_, _, create_eq e s hs nx ny nz, ?_⟩
  · simp [Uniform.create, Uniform.setSpacing, h, Uniform.setDims, Uniform.update]
  · simp [Uniform.create, Uniform.setSpacing, h, Uniform.setDims, Uniform.update]
  · intro i j hi hj hij
    simp only [List.getElem_map, List.getElem_range, placed, translation_setTranslation]
    have hne : coords nx nz i ≠ coords nx nz j := by
      intro hc
      apply hij
      simp only [coords, Prod.mk.injEq] at hc
      obtain ⟨h1, h2, h3⟩ := hc
      have e1 := Nat.div_add_mod (i % (nx * nz)) nz
      have e2 := Nat.div_add_mod (j % (nx * nz)) nz
      rw [h1, h3, e2] at e1
      rw [← Nat.div_add_mod i (nx * nz), ← Nat.div_add_mod j (nx * nz), h2, e1]
    generalize coords nx nz i = p at *
    generalize coords nx nz j = q at *
    have key : s ^ 2 ≤ (s * (p.1 : ℝ) - s * q.1) ^ 2 + (s * (p.2.1 : ℝ) - s * q.2.1) ^ 2 +
        (s * (p.2.2 : ℝ) - s * q.2.2) ^ 2 := by
      have one : ∀ a b : Nat, a ≠ b → s ^ 2 ≤ (s * (a : ℝ) - s * b) ^ 2 := by
        intro a b hab
        have : (1 : ℝ) ≤ ((a : ℝ) - b) ^ 2 := by
          have h1 : (1 : Int) ≤ ((a : Int) - b) ^ 2 := by
            have : (a : Int) - b ≠ 0 := by omega
            have := sq_pos_of_ne_zero this
            omega
          exact_mod_cast h1
        have e : (s * (a : ℝ) - s * b) ^ 2 = s ^ 2 * ((a : ℝ) - b) ^ 2 := by ring
        rw [e]
        nlinarith [sq_nonneg s]
      have n0 := sq_nonneg (s * (p.1 : ℝ) - s * q.1)
      have n1 := sq_nonneg (s * (p.2.1 : ℝ) - s * q.2.1)
      have n2 := sq_nonneg (s * (p.2.2 : ℝ) - s * q.2.2)
      by_cases h1 : p.1 = q.1
      · by_cases h2 : p.2.1 = q.2.1
        · have h3 : p.2.2 ≠ q.2.2 := fun h3 => hne (Prod.ext h1 (Prod.ext h2 h3))
          linarith [one _ _ h3]
        · linarith [one _ _ h2]
      · linarith [one _ _ h1]
    rw [norm3]
    apply Real.le_sqrt_of_sq_le
    simpa using key

/-- C81: spacings which are not positive and more than three dimensions are refused and change nothing. -/
theorem C81_refused (u : Uniform) (v : ℝ) (d : List Num) :
    (v ≤ 0 → u.setSpacing v = (u, .error .value)) ∧
    (0 < v → u.dims.length = 3 → (u.setSpacing v).2 = .ok () ∧ (u.setSpacing v).1.spacing = v) ∧
    (3 < d.length → u.setDims d = (u, .error .value)) := by
  refine ⟨fun h => by simp [Uniform.setSpacing, h], fun h h3 => ?_, fun h => ?_⟩
  · obtain ⟨a, b, c, hd⟩ : ∃ a b c, u.dims = [a, b, c] := by
      match u.dims, h3 with
      | [a, b, c], _ => exact ⟨a, b, c, rfl⟩
    simp [Uniform.setSpacing, not_le.mpr h, Uniform.update, hd]
  · match d, h with
    | _ :: _ :: _ :: _ :: _, h => simp [Uniform.setDims]

/-- C81 fails for arrays without dimensions: the assignment raises, but the dimensions are already replaced,
and the number of antennas, which are all still there, raises from then on. -/
theorem C81_empty_dims_fails (u : Uniform) :
    (u.setDims []).2 = .error .index ∧ (u.setDims []).1.antennas = u.antennas ∧
      (u.setDims []).1.numAntennas = .error .index := by
  simp [Uniform.setDims, Uniform.update, Uniform.numAntennas]

/-- C81 fails for negative dimensions: they are accepted, and the array reports antennas it does not have. -/
theorem C81_negative_fails (e : Elem) (s : ℝ) (hs : 0 < s) (a b : Nat) :
    ∃ u, Uniform.create e s [.int (-(a + 1)), .int (-(b + 1)), .int 1] = .ok u ∧ u.antennas = [] ∧
      u.numAntennas = .ok (.int ((a + 1) * (b + 1))) := by
  have h : ¬ s ≤ 0 := not_le.mpr hs
  have h1 : (-1 + -(a : Int)).toNat = 0 := by omega
  refine ⟨⟨e, s, [.int (-(a + 1)), .int (-(b + 1)), .int 1], []⟩, ?_, rfl, ?_⟩
  · simp [Uniform.create, Uniform.setSpacing, h, Uniform.setDims, Uniform.update, Num.val, gridOrder, h1]
  · simp only [Uniform.numAntennas, Num.mul]
    congr 2; ring

example : (0 : ℝ) < 0.5 := by norm_num

/-! ### Storage -/

/-- An element after `serialize` and `Deserialize`, `core/antennas.py` 375-385 and the methods of each model:
mode, pose and slant are stored, the weight of a simulated antenna is not and becomes one. -/
def Elem.restore (e : Elem) : Elem := { e with weight := e.weight.map fun _ => 1 }

/-- `UniformArray.serialize` and `Deserialize`, 1412-1424: the dimensions are stored as floating point
numbers. -/
noncomputable def Uniform.restore (u : Uniform) : Except PyErr Uniform :=
  Uniform.create u.element.restore u.spacing (u.dims.map fun d => .float d.val)

/-- C81: a restored uniform array has antennas of the same modes and models at the same places, if its number
of antennas is at hand. -/
theorem C81_restore_partial (e : Elem) (s : ℝ) (hs : 0 < s) (nx ny nz : Nat) (u : Uniform)
    (hu : Uniform.create e s [.int nx, .int ny, .int nz] = .ok u) :
    ∃ r, u.restore = .ok r ∧ r.spacing = u.spacing ∧ r.dims.map Num.val = u.dims.map Num.val ∧
      r.antennas.map (fun x => (x.antenna.mode, x.antenna.element, x.antenna.pose)) =
        u.antennas.map (fun x => (x.antenna.mode, x.antenna.element, x.antenna.pose)) := by
  rw [create_eq e s hs] at hu
  cases hu
  have h : ¬ s ≤ 0 := not_le.mpr hs
  refine ⟨⟨e.restore, s, [.float nx, .float ny, .float nz],
    (List.range (ny * (nx * nz))).map fun i => placed e.restore s (coords nx nz i)⟩, ?_, rfl, rfl, ?_⟩
  · simp [Uniform.restore, Uniform.create, Uniform.setSpacing, h, Uniform.setDims, Uniform.update, Num.val,
      gridOrder_eq]
    intro i _
    rw [coords, Nat.mod_mul_left_mod]
  · simp only [List.map_map]
    refine List.map_congr_left fun i _ => ?_
    simp only [Function.comp, placed, copy_antenna]
    rfl

/-- C81 fails for restored uniform arrays: their number of antennas is a floating point number, so asking for
the characteristics of all antennas raises a `TypeError`, and weights of simulated antennas are lost. -/
theorem C81_restore_fails (e : Elem) (s : ℝ) (hs : 0 < s) (nx ny nz : Nat) (u : Uniform)
    (hu : Uniform.create e s [.int nx, .int ny, .int nz] = .ok u) :
    u.allocate = .ok (nx * ny * nz) ∧
    ∃ r, u.restore = .ok r ∧ r.numAntennas = .ok (.float (nx * ny * nz)) ∧ r.allocate = .error .type ∧
      ∀ w, e.weight = some w → r.element.weight = some 1 := by
  obtain ⟨u', h1, h2, _, h4, _⟩ := C81_uniform e s hs nx ny nz
  rw [h1] at hu
  cases hu
  refine ⟨by rw [h4, h2], ?_⟩
  rw [create_eq e s hs] at h1
  cases h1
  have h : ¬ s ≤ 0 := not_le.mpr hs
  refine ⟨⟨e.restore, s, [.float nx, .float ny, .float nz],
    (List.range (ny * (nx * nz))).map fun i => placed e.restore s (coords nx nz i)⟩, ?_, ?_, ?_, ?_⟩
  · simp [Uniform.restore, Uniform.create, Uniform.setSpacing, h, Uniform.setDims, Uniform.update, Num.val,
      gridOrder_eq]
    intro i _
    rw [coords, Nat.mod_mul_left_mod]
  · simp [Uniform.numAntennas, Num.mul, Num.val]
  · simp [Uniform.allocate, Uniform.numAntennas, Num.mul]
  · intro w hw; simp [Elem.restore, hw]

/-! ### Simulated transmission -/

/-- The antennas of an array which transmit, 1273-1277. -/
def transmitters (l : List Elem) : List Elem := l.filter fun x => x.antenna.mode ≠ .rx

/-- Streams of a signal times the weights of the antennas they are transmitted over; antennas which are not
simulated have no `transmit`, `simulation/antennas.py` 86-110 and 297-302. -/
noncomputable def weighted : List Elem → List (List ℂ) → Except PyErr (List (List ℂ))
  | [], _ => .ok []
  | _, [] => .ok []
  | a :: as, s :: ss =>
    match a.weight with
    | none => .error .attribute
    | some w =>
      match weighted as ss with
      | .error e => .error e
      | .ok r => .ok (s.map (w * ·) :: r)

/-- `SimulatedAntennaArray.transmit`, `simulation/antennas.py` 276-302; `receive`, 304-324, is the same with
the receiving antennas. -/
noncomputable def transmit (l : List Elem) (signal : List (List ℂ)) : Except PyErr (List (List ℂ)) :=
  if signal.length ≠ (transmitters l).length then .error .value
  else weighted (transmitters l) signal

/-- C81: a simulated array transmits each stream over its own antenna, in order, with that antenna's weight,
and refuses other numbers of streams. -/
theorem C81_transmit_partial (l : List Elem) (signal : List (List ℂ)) (w : Elem → ℂ)
    (hw : ∀ x ∈ l, x.weight = some (w x)) :
    (signal.length ≠ (transmitters l).length → transmit l signal = .error .value) ∧
    (signal.length = (transmitters l).length → ∃ out, transmit l signal = .ok out ∧
      out.length = signal.length ∧
      ∀ (k : Nat) (h1 : k < out.length) (h2 : k < signal.length) (h3 : k < (transmitters l).length),
        out[k] = signal[k].map (w (transmitters l)[k] * ·)) := by
  constructor
  · intro h; rw [transmit, if_pos h]
  · intro h
    have hw' : ∀ x ∈ transmitters l, x.weight = some (w x) := fun x hx => hw x (List.mem_filter.mp hx).1
    have key : ∀ (as : List Elem) (ss : List (List ℂ)), (∀ x ∈ as, x.weight = some (w x)) →
        ss.length = as.length → weighted as ss = .ok (List.zipWith (fun a s => s.map (w a * ·)) as ss) := by
      intro as
      induction as with
      | nil => intro ss _ _; simp [weighted]
      | cons a as ih =>
        intro ss ha hl
        match ss, hl with
        | s :: ss, hl =>
          rw [weighted, ha a (by simp), ih ss (fun x hx => ha x (by simp [hx])) (by simpa using hl)]
          rfl
    refine ⟨_, by rw [transmit, if_neg (not_not.mpr h), key _ _ hw' h], by simp [h], ?_⟩
    intro k h1 h2 h3
    rw [List.getElem_zipWith]

example : ∃ l : List Elem, (∀ x ∈ l, x.weight = some Complex.I) ∧ (transmitters l).length = 1 :=
  ⟨[⟨⟨.duplex, .ideal, 1⟩, some Complex.I⟩, ⟨⟨.rx, .ideal, 1⟩, some Complex.I⟩], by simp,
    by simp [transmitters]⟩

/-- C81 fails for uniform arrays of simulated dipoles: their copies are not simulated antennas, so no signal
can be transmitted, whatever its size. -/
theorem C81_dipole_fails (w : ℂ) (m : Mode) (hm : m ≠ .rx) (T : Mat4) (s : ℝ) (hs : 0 < s) (n : Nat)
    (signal : List (List ℂ)) :
    ∃ u, Uniform.create ⟨⟨m, .dipole, T⟩, some w⟩ s [.int (n + 1), .int 1, .int 1] = .ok u ∧
      ∃ e, transmit u.antennas signal = .error e := by
  refine ⟨_, create_eq _ s hs (n + 1) 1 1, ?_⟩
  unfold transmit
  split
  · exact ⟨_, rfl⟩
  · rename_i h
    rw [not_not] at h
    have hf : ∀ x ∈ (List.range (1 * ((n + 1) * 1))).map (fun i =>
        placed ⟨⟨m, .dipole, T⟩, some w⟩ s (coords (n + 1) 1 i)), x.weight = none ∧ x.antenna.mode = m := by
      intro x hx
      obtain ⟨i, _, rfl⟩ := List.mem_map.mp hx
      exact ⟨rfl, rfl⟩
    have hlen : (transmitters ((List.range (1 * ((n + 1) * 1))).map (fun i =>
        placed ⟨⟨m, .dipole, T⟩, some w⟩ s (coords (n + 1) 1 i)))).length = n + 1 := by
      have : transmitters ((List.range (1 * ((n + 1) * 1))).map (fun i =>
          placed ⟨⟨m, .dipole, T⟩, some w⟩ s (coords (n + 1) 1 i))) = (List.range (1 * ((n + 1) * 1))).map
          (fun i => placed ⟨⟨m, .dipole, T⟩, some w⟩ s (coords (n + 1) 1 i)) := by
        rw [transmitters, List.filter_eq_self]
        intro x hx
        rw [(hf x hx).2]; simpa using hm
      rw [this]; simp
    have hmem : ∀ x ∈ transmitters ((List.range (1 * ((n + 1) * 1))).map (fun i =>
        placed ⟨⟨m, .dipole, T⟩, some w⟩ s (coords (n + 1) 1 i))), x.weight = none :=
      fun x hx => (hf x (List.mem_filter.mp hx).1).1
    rw [hlen] at h
    revert hmem hlen
    generalize transmitters _ = t
    intro hlen hmem
    match t, hlen, signal, h with
    | a :: as, _, x :: xs, _ =>
      rw [weighted, hmem a (by simp)]
      exact ⟨_, rfl⟩

/-! ### States -/

/-- An array mounted with its own pose on a device, `AntennaArray.__init__`, `core/antennas.py` 1239-1249:
its forwards transformation follows from the pose of the device. -/
def mounted (device own : Mat4) (l : List Antenna) : Array := ⟨device * own, l⟩

/-- `AntennaArray.state`, 1285-1296: the copies are placed on the base pose handed over, by
`SimulatedDevice.state` the pose of the device (`simulation/simulated_device.py` 1540). -/
def stateOf (a : List Antenna) (base : Mat4) : Array := ⟨base, a⟩

/-- C81: the state of an array which sits on its device without a pose of its own has all antennas where the
array has them, for all poses of the device.  Missing for the full claim: `C81_state_fails`. -/
theorem C81_state_partial (D : Mat4) (l : List Antenna) :
    (stateOf l D).antennas = (mounted D 1 l).antennas ∧
      ∀ x ∈ l, (stateOf l D).forwards * x.pose = (mounted D 1 l).forwards * x.pose := by
  simp [stateOf, mounted]

/-- C81 fails for arrays with a pose of their own: it is left out of their states, so every antenna of the
state is displaced by the offset of the array from the device, turned with the device. -/
theorem C81_state_fails {R : Mat3} (hR : IsRotation R) (p v : Vec3) (hv : v ≠ 0) (l : List Antenna)
    (x : Antenna) (hx : Rigid x.pose) :
    translation ((mounted (assemble R p) (assemble 1 v) l).forwards * x.pose) =
        translation ((stateOf l (assemble R p)).forwards * x.pose) + R.mulVec v ∧ R.mulVec v ≠ 0 := by
  obtain ⟨S, q, _, hS⟩ := hx
  constructor
  · simp only [mounted, stateOf, hS, assemble_mul, translation_of, Matrix.mul_one]
    abel
  · intro h
    apply hv
    have := congrArg (Rᵀ.mulVec ·) h
    simpa [mulVec_mulVec, hR.2.1] using this

example : (![0, 0, 1] : Vec3) ≠ 0 := fun h => by simpa using congrFun h 2

/-- Indices of `select_subarray`, `core/antennas.py` 1185-1217: an integer, a slice with start and stop, or a
sequence of integers. -/
inductive Sel where
  | index (i : Int)
  | slice (start stop : Int)
  | list (l : List Int)

/-- `xs[i]` of a Python list. -/
def pyAt {α : Type} (xs : List α) (i : Int) : Except PyErr α :=
  match xs[(if i < 0 then i + xs.length else i).toNat]? with
  | some x => if -(xs.length : Int) ≤ i then .ok x else .error .index
  | none => .error .index

/-- Bounds of slices. -/
def bound (n : Nat) (i : Int) : Nat := if i < 0 then (i + n).toNat else min i.toNat n

/-- Lines 1211-1217. -/
def Sel.pick {α : Type} (s : Sel) (xs : List α) : Except PyErr (List α) :=
  match s with
  | .index i => (pyAt xs i).map (fun x => [x])
  | .slice a b => .ok ((xs.drop (bound xs.length a)).take (bound xs.length b - bound xs.length a))
  | .list l => collect (pyAt xs) l

/-- Array states sharing antenna objects: the poses and the antennas of each state, the antennas, and the
state each antenna is based on. -/
structure Pool where
  states : List (Mat4 × List Nat)
  antennas : Nat → Antenna
  base : Nat → Nat

/-- `AntennaArrayState.__init__`, 1152-1165: the antennas are rebased on the new state. -/
def Pool.create (w : Pool) (pose : Mat4) (l : List Nat) : Pool :=
  { w with
    states := w.states ++ [(pose, l)]
    base := fun i => if i ∈ l then w.states.length else w.base i }

/-- Antennas considered by `select_subarray`, 1200-1208. -/
def Pool.considered (w : Pool) (l : List Nat) : Mode → List Nat
  | .duplex => l
  | .tx => l.filter fun i => (w.antennas i).mode ≠ .rx
  | .rx => l.filter fun i => (w.antennas i).mode ≠ .tx

/-- `select_subarray` of the `k`-th state, 1185-1220, and `__getitem__`, 1222-1228. -/
def Pool.select (w : Pool) (k : Nat) (s : Sel) (m : Mode) : Except PyErr Pool :=
  match w.states[k]? with
  | none => .error .index
  | some st =>
    match s.pick (w.considered st.2 m) with
    | .error e => .error e
    | .ok l => .ok (w.create st.1 l)

/-- Forwards transformation of an antenna. -/
def Pool.forwards (w : Pool) (i : Nat) : Mat4 :=
  match w.states[w.base i]? with
  | some st => st.1 * (w.antennas i).pose
  | none => (w.antennas i).pose

/-- Rows of the topology of the `k`-th state, 664-685. -/
noncomputable def Pool.topology (w : Pool) (k : Nat) : Except PyErr (List Vec3) :=
  match w.states[k]? with
  | none => .error .index
  | some st =>
    if st.2.length = 0 then .ok []
    else match invert st.1 with
      | .error e => .error e
      | .ok B => .ok (st.2.map fun i =>
          let l := B.mulVec fun j => w.forwards i j 3
          ![l 0, l 1, l 2])

/-- A user's program: selections of subarrays, failing ones caught. -/
def Pool.run (w : Pool) : List (Nat × Sel × Mode) → Pool
  | [] => w
  | (k, s, m) :: ops =>
    match w.select k s m with
    | .ok w' => w'.run ops
    | .error _ => w.run ops

/-- The state of an array of `n` antennas at a pose. -/
def Pool.start (D : Mat4) (n : Nat) (ants : Nat → Antenna) : Pool :=
  ⟨[(D, List.range n)], ants, fun _ => 0⟩

/-- All states have the pose of the first, contain its antennas only, and every antenna is based on one of
them. -/
def Pool.Inv (w : Pool) (D : Mat4) (n : Nat) (ants : Nat → Antenna) : Prop :=
  w.antennas = ants ∧ (∀ st ∈ w.states, st.1 = D ∧ ∀ i ∈ st.2, i < n) ∧ ∀ i, w.base i < w.states.length

theorem pyAt_mem {α : Type} {xs : List α} {i : Int} {x : α} (h : pyAt xs i = .ok x) : x ∈ xs := by
  unfold pyAt at h
  split at h
  · rename_i y hy
    split at h
    · cases h; exact List.mem_of_getElem? hy
    · exact absurd h (by simp)
  · exact absurd h (by simp)

theorem collect_mem {α β : Type} {f : α → Except PyErr β} : ∀ {l : List α} {r : List β},
    collect f l = .ok r → ∀ y ∈ r, ∃ x ∈ l, f x = .ok y
  | [], r, h => by cases h; simp
  | x :: xs, r, h => by
    rw [collect] at h
    split at h
    · exact absurd h (by simp)
    · rename_i y hy
      split at h
      · exact absurd h (by simp)
      · rename_i ys hys
        cases h
        intro z hz
        rcases List.mem_cons.mp hz with rfl | hz
        · exact ⟨x, by simp, hy⟩
        · obtain ⟨v, hv, h⟩ := collect_mem hys z hz
          exact ⟨v, by simp [hv], h⟩

theorem pick_mem {α : Type} {s : Sel} {xs l : List α} (h : s.pick xs = .ok l) : ∀ x ∈ l, x ∈ xs := by
  cases s with
  | index i =>
    rw [Sel.pick] at h
    cases hp : pyAt xs i with
    | error e => rw [hp] at h; exact absurd h (by simp [Except.map])
    | ok x =>
      rw [hp] at h
      cases h
      simpa using pyAt_mem hp
  | slice a b =>
    cases h
    exact fun x hx => List.mem_of_mem_drop (List.mem_of_mem_take hx)
  | list l' =>
    intro x hx
    obtain ⟨i, _, hi⟩ := collect_mem h x hx
    exact pyAt_mem hi

theorem considered_sub (w : Pool) (l : List Nat) (m : Mode) : ∀ i ∈ w.considered l m, i ∈ l := by
  cases m <;> simp [Pool.considered] <;> tauto

theorem select_inv {w w' : Pool} {D : Mat4} {n : Nat} {ants : Nat → Antenna} {k : Nat} {s : Sel} {m : Mode}
    (hI : w.Inv D n ants) (h : w.select k s m = .ok w') : w'.Inv D n ants := by
  obtain ⟨h1, h2, h3⟩ := hI
  unfold Pool.select at h
  split at h
  · exact absurd h (by simp)
  · rename_i st hst
    split at h
    · exact absurd h (by simp)
    · rename_i l hl
      cases h
      have hm := List.mem_of_getElem? hst
      refine ⟨h1, fun t ht => ?_, fun i => ?_⟩
      · rcases List.mem_append.mp ht with ht | ht
        · exact h2 t ht
        · rw [List.mem_singleton] at ht
          subst ht
          exact ⟨(h2 st hm).1, fun i hi => (h2 st hm).2 i (considered_sub w st.2 m i (pick_mem hl i hi))⟩
      · simp only [Pool.create, List.length_append, List.length_cons, List.length_nil]
        split
        · omega
        · have := h3 i; omega

theorem run_inv {D : Mat4} {n : Nat} {ants : Nat → Antenna} : ∀ (ops : List (Nat × Sel × Mode)) (w : Pool),
    w.Inv D n ants → (w.run ops).Inv D n ants
  | [], _, h => h
  | (k, s, m) :: ops, w, h => by
    rw [Pool.run]
    cases hs : w.select k s m with
    | error e => exact run_inv ops w h
    | ok w' => exact run_inv ops w' (select_inv h hs)

theorem start_inv (D : Mat4) (n : Nat) (ants : Nat → Antenna) : (Pool.start D n ants).Inv D n ants := by
  refine ⟨rfl, fun st hst => ?_, fun i => by simp [Pool.start]⟩
  simp only [Pool.start, List.mem_singleton] at hst
  subst hst
  exact ⟨rfl, fun i hi => List.mem_range.mp hi⟩

/-- C81: selecting subarrays of a state, and subarrays of those, never moves an antenna: after any program of
selections, by index, slice or sequence and by mode, each antenna is where the state put it, and each state
and subarray reports its antennas' positions within the array. -/
theorem C81_subarrays (D : Mat4) (hD : Rigid D) (n : Nat) (ants : Nat → Antenna)
    (hx : ∀ i, Rigid (ants i).pose) (ops : List (Nat × Sel × Mode)) :
    let w := (Pool.start D n ants).run ops
    (∀ i, w.forwards i = D * (ants i).pose) ∧
      ∀ (k : Nat) (st : Mat4 × List Nat), w.states[k]? = some st →
        st.1 = D ∧ (∀ i ∈ st.2, i < n) ∧
        w.topology k = .ok (st.2.map fun i => translation (ants i).pose) := by
  intro w
  obtain ⟨h1, h2, h3⟩ : w.Inv D n ants := run_inv ops _ (start_inv D n ants)
  have hf : ∀ i, w.forwards i = D * (ants i).pose := by
    intro i
    have hb := h3 i
    unfold Pool.forwards
    rw [List.getElem?_eq_getElem hb]
    simp only [(h2 _ (List.getElem_mem hb)).1, h1]
  refine ⟨hf, fun k st hk => ?_⟩
  obtain ⟨hs, hn⟩ := h2 st (List.mem_of_getElem? hk)
  refine ⟨hs, hn, ?_⟩
  obtain ⟨R, p, hR, rfl⟩ := hD
  unfold Pool.topology
  simp only [hk]
  split
  · rename_i h0
    rw [List.length_eq_zero_iff.mp h0]; rfl
  · rw [hs, invert_assemble hR]
    refine congrArg Except.ok (List.map_congr_left fun i _ => ?_)
    simp only [hf]
    exact topologyRow_eq hR p (ants i) (hx i)

/-- C81: what selections select.  Indices count from the end if negative and are refused outside the array,
slices are always accepted, sequences are taken in their order. -/
theorem C81_selection {α : Type} (xs : List α) :
    (∀ (i : Nat) (h : i < xs.length), (Sel.index i).pick xs = .ok [xs[i]]) ∧
    (∀ (i : Nat) (h : i < xs.length), (Sel.index (-(i + 1 : Int))).pick xs = .ok [xs[xs.length - 1 - i]]) ∧
    (∀ i : Int, (xs.length : Int) ≤ i ∨ i < -xs.length → (Sel.index i).pick xs = .error .index) ∧
    (∀ a b : Nat, a ≤ b → b ≤ xs.length → (Sel.slice a b).pick xs = .ok ((xs.drop a).take (b - a))) ∧
    (∀ l : List Nat, (h : ∀ i ∈ l, i < xs.length) →
      (Sel.list (l.map Int.ofNat)).pick xs = .ok (l.attach.map fun i => xs[i.1]'(h i.1 i.2))) := by
  have at_ok : ∀ (i : Nat) (h : i < xs.length), pyAt xs i = .ok xs[i] := by
    intro i h
    unfold pyAt
    rw [if_neg (by omega), Int.toNat_natCast, List.getElem?_eq_getElem h]
    simp only
    rw [if_pos (by omega)]
  refine ⟨fun i h => ?_, fun i h => ?_, fun i h => ?_, fun a b h1 h2 => ?_, fun l h => ?_⟩
  · rw [Sel.pick, at_ok i h]; rfl
  · have e : (-(i + 1 : Int) + xs.length).toNat = xs.length - 1 - i := by omega
    have hl : xs.length - 1 - i < xs.length := by omega
    rw [Sel.pick, pyAt, if_pos (by omega), e, List.getElem?_eq_getElem hl]
    simp only
    rw [if_pos (by omega)]
    rfl
  · rw [Sel.pick]
    have : pyAt xs i = .error .index := by
      unfold pyAt
      rcases h with h | h
      · rw [if_neg (by omega), List.getElem?_eq_none (by omega)]
      · split
        · rw [if_neg (by omega)]
        · rfl
    rw [this]; rfl
  · rw [Sel.pick, bound, bound, if_neg (by omega), if_neg (by omega), Int.toNat_natCast, Int.toNat_natCast,
      min_eq_left (by omega), min_eq_left (by omega)]
  · rw [Sel.pick]
    have : ∀ (l : List Nat) (h : ∀ i ∈ l, i < xs.length),
        collect (pyAt xs) (l.map Int.ofNat) = .ok (l.attach.map fun i => xs[i.1]'(h i.1 i.2)) := by
      intro l
      induction l with
      | nil => intro _; rfl
      | cons a l ih =>
        intro h
        have ha : pyAt xs (Int.ofNat a) = .ok (xs[a]'(h a (by simp))) := at_ok a (h a (by simp))
        rw [List.map_cons, collect, ha, ih fun i hi => h i (by simp [hi])]
        simp
    exact this l h

/-- C81: subarrays of a mode. The indices given for a mode refer to the antennas that can operate in it, in the order of
the array: for transmission and for reception those without the opposite restriction, otherwise all. The new state has the
pose of the old one. -/
theorem C81_modes (w w' : Pool) (k : Nat) (s : Sel) (m : Mode) (st : Mat4 × List Nat) (hk : w.states[k]? = some st)
    (h : w.select k s m = .ok w') : ∃ able sub : List Nat, able.Sublist st.2 ∧
      (∀ i ∈ st.2, i ∈ able ↔ m = .duplex ∨ (w.antennas i).mode = m ∨ (w.antennas i).mode = .duplex) ∧
      s.pick able = .ok sub ∧ w'.states = w.states ++ [(st.1, sub)] := by
  unfold Pool.select at h
  rw [hk] at h
  dsimp only at h
  split at h
  · cases h
  · rename_i l hl
    cases h
    refine ⟨w.considered st.2 m, l, ?_, ?_, hl, rfl⟩
    · cases m <;> simp [Pool.considered]
    · intro i hi
      cases m <;> simp only [Pool.considered, List.mem_filter, hi, true_and] <;>
        cases (w.antennas i).mode <;> simp

example : ∃ w', (Pool.start 1 2 fun i => ⟨if i = 0 then .tx else .rx, .ideal, 1⟩).select 0 (.index 0) .rx = .ok w' ∧
    w'.states.map (·.2) = [[0, 1], [1]] := by
  refine ⟨_, rfl, ?_⟩
  simp [Pool.create, Pool.start]
  rfl

example : (Sel.list [-1, 0, 0]).pick ["a", "b", "c"] = .ok ["c", "a", "a"] := by decide +kernel

example : Rigid (assemble (rotationFromRpy ![1, 2, 3]) ![4, 5, 6]) := ⟨_, _, rpy_isRotation _, rfl⟩

/-- `pose` setter of a state, inherited from `Transformable`, `core/transformation.py` 700-703. -/
def Pool.setPose (w : Pool) (k : Nat) (T : Mat4) : Pool :=
  { w with states := w.states.set k (T, (w.states.getD k (T, [])).2) }

/-- C81 fails for states as immutable objects: a subarray shares its antennas with the state it was selected
from, so moving the subarray displaces the antennas of that state. -/
theorem C81_shared_fails (v : Vec3) :
    let w := (Pool.start 1 1 fun _ => ⟨.duplex, .ideal, 1⟩).run [(0, .index 0, .duplex)]
    w.topology 0 = .ok [0] ∧ (w.setPose 1 (assemble 1 v)).topology 0 = .ok [v] := by
  intro w
  have hw : w = ⟨[(1, [0]), (1, [0])], fun _ => ⟨.duplex, .ideal, 1⟩, fun i => if i ∈ [0] then 1 else 0⟩ := by
    simp [w, Pool.run, Pool.select, Pool.start, Pool.considered, Sel.pick, pyAt, Except.map, Pool.create]
  have hd : invert (1 : Mat4) = .ok 1 := by simp [invert]
  rw [hw]
  constructor
  · simp [Pool.topology, hd, Pool.forwards]
  · simp [Pool.topology, hd, Pool.forwards, Pool.setPose, assemble]
    funext i; fin_cases i <;> simp

end Verif.Core.Ant

namespace Verif.Core.Kin

variable {G : Type} [Group G]

/-- `SimulatedCustomArray.__init__`, `simulation/antennas.py` 806-808: after the antennas are based on the
array (frame `a`), the array is initialised a second time, by which it forgets the frames linked to it
(`core/transformation.py` 504-507 and 604-608). -/
def reinit (R a : Nat) (g : G) (st : State G) : Except PyErr (State G) :=
  setPose R a g { st with
    links := upd st.links a []
    base := upd st.base a none }

omit [Group G] in
theorem clear_nil (R a : Nat) (st : State G) (h : st.links a = []) : clear (R + 1) a st = .ok (drop st a) := by
  rw [clear]
  simp only [drop, h, List.foldlM_nil]
  rfl

/-- C81 fails for simulated custom arrays which are moved.  An antenna handed to the array when it is created
is still based on it, but no longer among the frames the array notifies: once its position was looked up, it
stays where it was however the array is moved, although the array itself reports its new pose. -/
theorem C81_custom_fails (R a x : Nat) (hax : x ≠ a) (p p' : G) (st : State G)
    (ha : st.root a = false) (hx : st.root x = false) (hb : st.base x = some a)
    (hf : st.fwd x = none) :
    ∃ s1 s2 s3 s4 s5, reinit (R + 2) a p st = .ok s1 ∧ readF (R + 2) x s1 = .ok (p * st.pose x, s2) ∧
      setPose (R + 2) a p' s2 = .ok s3 ∧ readF (R + 2) x s3 = .ok (p * st.pose x, s4) ∧
      readF (R + 2) a s4 = .ok (p', s5) := by
  have h1 : reinit (R + 2) a p st = .ok (drop ({ st with
      links := upd st.links a []
      base := upd st.base a none
      pose := upd st.pose a p }) a) := by
    rw [reinit, setPose, clear_nil _ _ _ (by simp [upd])]
  set s1 : State G := drop ({ st with
      links := upd st.links a []
      base := upd st.base a none
      pose := upd st.pose a p }) a with hs1
  have hr2 : readF (R + 2) x s1 = .ok (p * st.pose x, { s1 with
      fwd := upd (upd s1.fwd a (some .aliasPose)) x (some (.own (p * st.pose x))) }) := by
    have ra : readF (R + 1) a s1 = .ok (p, { s1 with fwd := upd s1.fwd a (some .aliasPose) }) := by
      simp [readF, hs1, drop, upd, ha]
    have e1 : s1.root x = false := hx
    have e2 : s1.fwd x = none := by simp [hs1, drop, upd, hax, hf]
    have e3 : s1.base x = some a := by simp [hs1, drop, upd, hax, hb]
    have e4 : s1.pose x = st.pose x := by simp [hs1, drop, upd, hax]
    rw [readF]
    simp only [e1, e2, e3, ra, e4, Bool.false_eq_true, if_false]
  set s2 : State G := { s1 with
      fwd := upd (upd s1.fwd a (some .aliasPose)) x (some (.own (p * st.pose x))) } with hs2
  have h3 : setPose (R + 2) a p' s2 = .ok (drop { s2 with pose := upd s2.pose a p' } a) := by
    rw [setPose, clear_nil]
    simp [hs2, hs1, drop, upd]
  set s3 : State G := drop { s2 with pose := upd s2.pose a p' } a with hs3
  have h4 : readF (R + 2) x s3 = .ok (p * st.pose x, s3) := by
    have e1 : s3.root x = false := hx
    have e2 : s3.fwd x = some (.own (p * st.pose x)) := by
      simp [hs3, hs2, drop, upd, hax]
    rw [readF]
    simp only [e1, e2, Bool.false_eq_true, if_false]
  have h5 : readF (R + 2) a s3 = .ok (p', { s3 with fwd := upd s3.fwd a (some .aliasPose) }) := by
    simp [readF, hs3, hs2, hs1, drop, upd, ha]
  exact ⟨s1, s2, s3, s3, _, h1, hr2, h3, h4, h5⟩

/-- The antenna of an array created with one antenna meets the hypotheses. -/
example :
    (match setBase 10 1 (some 0) (init (fun _ => false) fun i => (Multiplicative.ofAdd (i : Int) : Z)) with
      | .ok st => !st.root 0 && !st.root 1 && st.base 1 == some 0 && (st.fwd 1).isNone
      | .error _ => false) = true := by
  decide +kernel

end Verif.Core.Kin
