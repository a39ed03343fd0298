import Verif.Np
import Verif.Core.Pose
import Verif.Core.Lookat
import Verif.Channel.State
import Mathlib.Analysis.SpecialFunctions.Sqrt
import Mathlib.Analysis.SpecialFunctions.Exp
import Mathlib.Analysis.Calculus.Deriv.Pow
import Mathlib.Analysis.Calculus.Deriv.Mul
import Mathlib.Analysis.Calculus.Deriv.Add
import Mathlib.Analysis.SpecialFunctions.Complex.Circle

/-!
# C77: radar propagation paths

`hermespy/channel/radar/radar.py`: the paths a radar channel consists of, how a sample of such a channel
propagates signals over them, and the channel state information it reports.  Floating point numbers are
idealised as real and complex numbers.  Responses of antenna arrays (`hermespy/core/antennas.py`) are
arbitrary functions of mode, carrier frequency and position.  Divisions by a distance of zero never take
place in propagation and state, where `relative_velocity` raises first.
-/

namespace Verif.RadarChannel

open Verif Verif.Core Finset
open Verif.Channel.State (Sig Csi)

/-- `scipy.constants.speed_of_light`. -/
def light : ℝ := 299792458

/-- `AntennaMode`. -/
inductive Mode
  | duplex
  | tx
  | rx
  deriving DecidableEq

/-- State of a device, as far as radar channels look at it: position, velocity, number of transmitting,
receiving and all antennas, and `cartesian_array_response(carrier_frequency, position, "global", mode)`
indexed by antenna and polarization, core/antennas.py 954-1000. -/
structure Dev where
  pos : Vec3
  vel : Vec3
  numTx : Nat
  numRx : Nat
  num : Nat
  resp : Mode → ℝ → Vec3 → Nat → Nat → ℂ

/-- Number of rows of the array response of a mode, core/antennas.py 731-755. -/
def Dev.count (d : Dev) : Mode → Nat
  | .duplex => d.num
  | .tx => d.numTx
  | .rx => d.numRx

/-- `RadarTargetPath`, channel/radar/radar.py 457-492, and `RadarInterferencePath`, 615-616. -/
inductive Path
  | target (pos vel : Vec3) (rcs phase : ℝ) (attenuate static : Bool)
  | interference (attenuate static : Bool)

/-- `static`, channel/radar/radar.py 279-283. -/
def Path.static : Path → Bool
  | .target _ _ _ _ _ s => s
  | .interference _ s => s

/-- `propagation_delay`, channel/radar/radar.py 534-541 and 623-625. -/
noncomputable def Path.delay (p : Path) (tx rx : Dev) : ℝ :=
  match p with
  | .target pos _ _ _ _ _ => (norm3 (pos - tx.pos) + norm3 (rx.pos - pos)) / light
  | .interference _ _ => norm3 (rx.pos - tx.pos) / light

/-- `relative_velocity`, channel/radar/radar.py 543-559 and 627-631. -/
noncomputable def Path.velocity (p : Path) (tx rx : Dev) : Except PyErr ℝ :=
  match p with
  | .target pos vel _ _ _ _ =>
    match fromCartesian (pos - tx.pos) true with
    | .error e => .error e
    | .ok emerging =>
      match fromCartesian (rx.pos - pos) true with
      | .error e => .error e
      | .ok impinging => .ok (dot3 emerging (vel - tx.vel) + dot3 impinging (rx.vel - vel))
  | .interference _ _ =>
    match fromCartesian (rx.pos - tx.pos) true with
    | .error e => .error e
    | .ok connection => .ok (dot3 (tx.vel - rx.vel) connection)

/-- A complex matrix. -/
structure Mat where
  rows : Nat
  cols : Nat
  val : Nat → Nat → ℂ

/-- `np.inner` of two array responses: sums over the two polarizations. -/
noncomputable def inner (a b : Nat → Nat → ℂ) (i j : Nat) : ℂ := ∑ p ∈ range 2, a i p * b j p

/-- `propagation_response`, channel/radar/radar.py 561-590 and 633-655.  The interference path queries the
array responses without a mode, that is of all antennas. -/
noncomputable def Path.response (p : Path) (tx rx : Dev) (fc : ℝ) : Mat :=
  match p with
  | .target pos _ rcs phase attenuate _ =>
    let amplitude : ℝ :=
      if attenuate then
        light / fc * Real.sqrt rcs /
          ((4 * Real.pi) ^ (1.5 : ℝ) * norm3 (pos - tx.pos) * norm3 (rx.pos - pos))
      else 1
    ⟨rx.count .rx, tx.count .tx, fun i j => amplitude * Complex.exp (phase * Complex.I) *
      inner (rx.resp .rx fc pos) (tx.resp .tx fc pos) i j⟩
  | .interference attenuate _ =>
    let amplitude : ℝ :=
      if attenuate then light / fc / (4 * Real.pi * norm3 (rx.pos - tx.pos)) else 1
    ⟨rx.count .duplex, tx.count .duplex, fun i j => amplitude *
      inner (rx.resp .duplex fc tx.pos) (tx.resp .duplex fc rx.pos) i j⟩

/-- `echo_weights`, channel/radar/radar.py 392-397 and 434-438. -/
noncomputable def weight (v fc bw time : ℝ) (n : Nat) : ℂ :=
  Complex.exp (2 * Real.pi * Complex.I * ((v * fc / light * (time + n / bw) : ℝ) : ℂ))

/-- `np.einsum("ij,jk,k->ik", h, x, w)`, channel/radar/radar.py 401: the summed dimensions must agree, a
dimension of one is stretched. -/
noncomputable def einsum (h : Mat) (x : Sig ℂ) (w : Nat → ℂ) : Except PyErr (Nat → Nat → ℂ) :=
  if h.cols = x.streams then
    .ok fun i k => ∑ j ∈ range x.streams, h.val i j * x.val j k * w k
  else if h.cols = 1 then .ok fun i k => ∑ j ∈ range x.streams, h.val i 0 * x.val j k * w k
  else if x.streams = 1 then .ok fun i k => ∑ j ∈ range h.cols, h.val i j * x.val 0 k * w k
  else .error .value

/-- `buffer[:, off : off + n] += e` for a buffer of `rows × width` and `e` of `m × n`, channel/radar/radar.py
399-401: numpy clips the slice and stretches dimensions of one of the right hand side only. -/
noncomputable def addSlice (rows width off m n : Nat) (e y : Nat → Nat → ℂ) :
    Except PyErr (Nat → Nat → ℂ) :=
  let w := min width (off + n) - off
  if (m = rows ∨ m = 1) ∧ (n = w ∨ n = 1) then
    .ok fun r k =>
      if off ≤ k ∧ k < off + w then
        y r k + e (if m = rows then r else 0) (if n = w then k - off else 0)
      else y r k
  else .error .value

/-- `add_propagation`, channel/radar/radar.py 387-401, with delay and velocity as handed over in 117-127. -/
noncomputable def Path.addPropagation (p : Path) (tx rx : Dev) (x : Sig ℂ) (bw fc time : ℝ)
    (rows width : Nat) (delay v : ℝ) (y : Nat → Nat → ℂ) : Except PyErr (Nat → Nat → ℂ) :=
  match einsum (p.response tx rx fc) x (weight v fc bw time) with
  | .error e => .error e
  | .ok e => addSlice rows width ⌊delay * bw⌋₊ (p.response tx rx fc).rows x.len e y

/-- The list comprehension of channel/radar/radar.py 94-99. -/
noncomputable def velocities (tx rx : Dev) : List Path → Except PyErr (List ℝ)
  | [] => .ok []
  | p :: ps =>
    match p.velocity tx rx with
    | .error e => .error e
    | .ok v =>
      match velocities tx rx ps with
      | .error e => .error e
      | .ok vs => .ok (v :: vs)

/-- `max()` of an array. -/
noncomputable def maxOf (l : List ℝ) : ℝ := l.foldl max (l.headD 0)

/-- `max_delay_in_samples`, channel/radar/radar.py 102-108. -/
noncomputable def overhead (delays vs : List ℝ) (bw : ℝ) (n : Nat) : ℤ :=
  if delays = [] then 0 else ⌈maxOf delays * bw + 2 * maxOf vs * n / (bw * light)⌉

/-- The loop of channel/radar/radar.py 116-127. -/
noncomputable def loop (tx rx : Dev) (x : Sig ℂ) (bw fc time : ℝ) (width : Nat) :
    List Path → List ℝ → (Nat → Nat → ℂ) → Except PyErr (Nat → Nat → ℂ)
  | p :: ps, v :: vs, y =>
    match p.addPropagation tx rx x bw fc time rx.numRx width (p.delay tx rx) v y with
    | .error e => .error e
    | .ok y' => loop tx rx x bw fc time width ps vs y'
  | _, _, y => .ok y

/-- A `RadarChannelSample`, channel/radar/radar.py 47-69: paths, gain and link state. -/
structure Sample where
  paths : List Path
  gain : ℝ
  tx : Dev
  rx : Dev
  fc : ℝ
  bw : ℝ
  time : ℝ

/-- `_propagate`, channel/radar/radar.py 87-137. -/
noncomputable def Sample.propagate (s : Sample) (x : Sig ℂ) : Except PyErr (Sig ℂ) :=
  match velocities s.tx s.rx s.paths with
  | .error e => .error e
  | .ok vs =>
    let len : ℤ := x.len + overhead (s.paths.map fun p => p.delay s.tx s.rx) vs s.bw x.len
    if len < 0 then .error .value
    else
      match loop s.tx s.rx x s.bw s.fc s.time len.toNat s.paths vs fun _ _ => 0 with
      | .error e => .error e
      | .ok y => .ok ⟨s.rx.numRx, len.toNat, fun r m => y r m * (Real.sqrt s.gain : ℝ)⟩

/-- `expected_energy_scale`, channel/radar/radar.py 83-85. -/
def Sample.energyScale (s : Sample) : ℝ := s.gain

/-- `add_state`, channel/radar/radar.py 425-442, to a tensor of `rows × cols × smp × taps`.  The right hand
side is stretched along dimensions of one. -/
noncomputable def Path.addState (p : Path) (tx rx : Dev) (bw fc time delay : ℝ)
    (rows cols taps : Nat) (st : Nat → Nat → Nat → Nat → ℂ) :
    Except PyErr (Nat → Nat → Nat → Nat → ℂ) :=
  match p.velocity tx rx with
  | .error e => .error e
  | .ok v =>
    let h := p.response tx rx fc
    let off : ℤ := if 0 ≤ p.delay tx rx * bw - delay then ⌊p.delay tx rx * bw - delay⌋
      else ⌈p.delay tx rx * bw - delay⌉
    if off < 0 ∨ (taps : ℤ) ≤ off then .ok st
    else if (h.rows = rows ∨ h.rows = 1) ∧ (h.cols = cols ∨ h.cols = 1) then
      .ok fun r t s k =>
        if (k : ℤ) = off then
          st r t s k + h.val (if h.rows = rows then r else 0) (if h.cols = cols then t else 0) *
            weight v fc bw time s
        else st r t s k
    else .error .value

/-- The loop of channel/radar/radar.py 154-163. -/
noncomputable def stateLoop (s : Sample) (taps : Nat) :
    List Path → (Nat → Nat → Nat → Nat → ℂ) → Except PyErr (Nat → Nat → Nat → Nat → ℂ)
  | [], st => .ok st
  | p :: ps, st =>
    match p.addState s.tx s.rx s.bw s.fc s.time 0 s.rx.numRx s.tx.numTx taps st with
    | .error e => .error e
    | .ok st' => stateLoop s taps ps st'

/-- `state`, channel/radar/radar.py 139-170. -/
noncomputable def Sample.state (s : Sample) (smp taps : Nat) : Except PyErr (Csi ℂ) :=
  match stateLoop s taps s.paths fun _ _ _ _ => 0 with
  | .error e => .error e
  | .ok st => Verif.Channel.State.create .impulse s.rx.numRx s.tx.numTx smp taps
      (fun r t m k => st r t m k * (Real.sqrt s.gain : ℝ)) none none

/-- `null_hypothesis`, channel/radar/radar.py 172-194. -/
def Sample.null (s : Sample) : Sample :=
  { s with paths := s.paths.filter Path.static, time := 0 }

/-- `_reciprocal_sample`, channel/radar/radar.py 228-231, for the link in the opposite direction. -/
def Sample.reciprocal (s : Sample) : Sample := { s with tx := s.rx, rx := s.tx }

/-! ### Geometry -/

theorem light_pos : 0 < light := by norm_num [light]

theorem fromCartesian_ok {v : Vec3} (h : v ≠ 0) : fromCartesian v true = .ok (scale v (norm3 v)) := by
  have hn := norm3_ne h
  unfold fromCartesian
  simp only [if_true]
  rw [if_neg]
  · rfl
  · exact hn.ne'

theorem fromCartesian_zero : fromCartesian 0 true = .error .value := by simp [fromCartesian]

theorem norm3_nonneg (a : Vec3) : 0 ≤ norm3 a := Real.sqrt_nonneg _

theorem norm3_sub_comm (a b : Vec3) : norm3 (a - b) = norm3 (b - a) := by
  unfold norm3
  congr 1
  simp only [Pi.sub_apply]
  ring

theorem norm3_deriv (a b : Vec3) (h : a ≠ 0) :
    HasDerivAt (fun t : ℝ => norm3 (a + t • b)) (dot3 (scale a (norm3 a)) b) 0 := by
  have hi : ∀ i, HasDerivAt (fun t : ℝ => (a i + t * b i) ^ 2) (2 * (a i * b i)) 0 := by
    intro i
    have h1 : HasDerivAt (fun t : ℝ => a i + t * b i) (b i) 0 := by
      simpa using ((hasDerivAt_id (0 : ℝ)).mul_const (b i)).const_add (a i)
    have h2 : HasDerivAt (fun t : ℝ => (a i + t * b i) ^ 2) _ 0 := h1.pow 2
    refine h2.congr_deriv ?_
    simp
    ring
  have hp : HasDerivAt (fun t : ℝ => (a 0 + t * b 0) ^ 2 + (a 1 + t * b 1) ^ 2 + (a 2 + t * b 2) ^ 2)
      (2 * (a 0 * b 0) + 2 * (a 1 * b 1) + 2 * (a 2 * b 2)) 0 := ((hi 0).add (hi 1)).add (hi 2)
  have hn := norm3_ne h
  have hs : Real.sqrt ((a 0 + 0 * b 0) ^ 2 + (a 1 + 0 * b 1) ^ 2 + (a 2 + 0 * b 2) ^ 2) = norm3 a := by
    simp [norm3]
  have hne : (a 0 + 0 * b 0) ^ 2 + (a 1 + 0 * b 1) ^ 2 + (a 2 + 0 * b 2) ^ 2 ≠ 0 := by
    intro h0
    rw [h0, Real.sqrt_zero] at hs
    exact hn.ne hs
  have hd := hp.sqrt hne
  rw [hs] at hd
  refine hd.congr_deriv ?_
  simp only [dot3, scale]
  field_simp

/-- No device is at the place it would have to look at. -/
def Path.Clear (p : Path) (tx rx : Dev) : Prop :=
  match p with
  | .target pos _ _ _ _ _ => pos ≠ tx.pos ∧ pos ≠ rx.pos
  | .interference _ _ => rx.pos ≠ tx.pos

theorem velocity_target {pos vel : Vec3} {rcs phase : ℝ} {a s : Bool} {tx rx : Dev}
    (h : (Path.target pos vel rcs phase a s).Clear tx rx) :
    (Path.target pos vel rcs phase a s).velocity tx rx =
      .ok (dot3 (scale (pos - tx.pos) (norm3 (pos - tx.pos))) (vel - tx.vel) +
        dot3 (scale (rx.pos - pos) (norm3 (rx.pos - pos))) (rx.vel - vel)) := by
  simp only [Path.velocity]
  rw [fromCartesian_ok (sub_ne_zero.mpr h.1), fromCartesian_ok (sub_ne_zero.mpr h.2.symm)]

theorem velocity_interference {a s : Bool} {tx rx : Dev} (h : (Path.interference a s).Clear tx rx) :
    (Path.interference a s).velocity tx rx =
      .ok (dot3 (tx.vel - rx.vel) (scale (rx.pos - tx.pos) (norm3 (rx.pos - tx.pos)))) := by
  simp only [Path.velocity]
  rw [fromCartesian_ok (sub_ne_zero.mpr h)]

theorem velocity_ok {p : Path} {tx rx : Dev} (h : p.Clear tx rx) : ∃ v, p.velocity tx rx = .ok v := by
  cases p with
  | target pos vel _ _ _ _ => exact ⟨_, velocity_target h⟩
  | interference _ _ => exact ⟨_, velocity_interference h⟩

theorem velocity_error {p : Path} {tx rx : Dev} (h : ¬ p.Clear tx rx) :
    p.velocity tx rx = .error .value := by
  cases p with
  | target pos vel _ _ _ _ =>
    simp only [Path.velocity]
    by_cases h1 : pos = tx.pos
    · rw [h1, sub_self, fromCartesian_zero]
    · rw [fromCartesian_ok (sub_ne_zero.mpr h1)]
      have h2 : pos = rx.pos := by
        by_contra h2
        exact h ⟨h1, h2⟩
      rw [h2, sub_self, fromCartesian_zero]
  | interference _ _ =>
    have h2 : rx.pos = tx.pos := not_not.mp h
    simp only [Path.velocity]
    rw [h2, sub_self, fromCartesian_zero]

/-- A device moving on at its velocity. -/
noncomputable def Dev.move (d : Dev) (t : ℝ) : Dev := { d with pos := d.pos + t • d.vel }

/-- A target moving on at its velocity. -/
noncomputable def Path.move (p : Path) (t : ℝ) : Path :=
  match p with
  | .target pos vel rcs phase a s => .target (pos + t • vel) vel rcs phase a s
  | .interference a s => .interference a s

theorem target_rate (pos vel : Vec3) (rcs phase : ℝ) (a s : Bool) (tx rx : Dev)
    (h : (Path.target pos vel rcs phase a s).Clear tx rx) :
    ∃ v, (Path.target pos vel rcs phase a s).velocity tx rx = .ok v ∧
      HasDerivAt (fun t : ℝ => ((Path.target pos vel rcs phase a s).move t).delay (tx.move t)
        (rx.move t)) (v / light) 0 := by
  refine ⟨_, velocity_target h, ?_⟩
  · obtain ⟨h1, h2⟩ := h
    have e1 := norm3_deriv (pos - tx.pos) (vel - tx.vel) (sub_ne_zero.mpr h1)
    have e2 := norm3_deriv (rx.pos - pos) (rx.vel - vel) (sub_ne_zero.mpr h2.symm)
    have hf : (fun t : ℝ => ((Path.target pos vel rcs phase a s).move t).delay (tx.move t)
        (rx.move t)) = fun t : ℝ => (norm3 (pos - tx.pos + t • (vel - tx.vel)) +
          norm3 (rx.pos - pos + t • (rx.vel - vel))) / light := by
      funext t
      simp only [Path.move, Path.delay, Dev.move]
      congr 3
      · module
      · module
    rw [hf]
    exact (e1.add e2).div_const light

theorem interference_rate (a s : Bool) (tx rx : Dev) (h : (Path.interference a s).Clear tx rx) :
    ∃ v, (Path.interference a s).velocity tx rx = .ok v ∧
      HasDerivAt (fun t : ℝ => ((Path.interference a s).move t).delay (tx.move t) (rx.move t))
        (-v / light) 0 := by
  refine ⟨_, velocity_interference h, ?_⟩
  · have e1 := norm3_deriv (rx.pos - tx.pos) (rx.vel - tx.vel) (sub_ne_zero.mpr h)
    have hf : (fun t : ℝ => ((Path.interference a s).move t).delay (tx.move t) (rx.move t)) =
        fun t : ℝ => norm3 (rx.pos - tx.pos + t • (rx.vel - tx.vel)) / light := by
      funext t
      simp only [Path.move, Path.delay, Dev.move]
      congr 2
      module
    rw [hf]
    refine (e1.div_const light).congr_deriv ?_
    congr 1
    simp only [dot3, Pi.sub_apply]
    ring

/-! ### Propagation -/

/-- Is the path the line of sight between the devices? -/
def Path.interferes : Path → Bool
  | .target _ _ _ _ _ _ => false
  | .interference _ _ => true

/-- The delay of a path in whole samples. -/
noncomputable def Path.shift (p : Path) (s : Sample) : Nat := ⌊p.delay s.tx s.rx * s.bw⌋₊

theorem velocities_map {tx rx : Dev} {v : Path → ℝ} :
    ∀ {ps : List Path}, (∀ p ∈ ps, p.velocity tx rx = .ok (v p)) →
      velocities tx rx ps = .ok (ps.map v)
  | [], _ => rfl
  | p :: ps, h => by
    simp only [velocities, h p (by simp), velocities_map fun q hq => h q (List.mem_cons_of_mem _ hq)]
    rfl

theorem le_foldl_max (l : List ℝ) (a : ℝ) : a ≤ l.foldl max a ∧ ∀ x ∈ l, x ≤ l.foldl max a := by
  induction l generalizing a with
  | nil => simp
  | cons b l ih =>
    obtain ⟨h1, h2⟩ := ih (max a b)
    refine ⟨(le_max_left a b).trans h1, fun x hx => ?_⟩
    rcases List.mem_cons.mp hx with rfl | hx
    · exact (le_max_right a x).trans h1
    · exact h2 x hx

theorem foldl_max_mem (l : List ℝ) (a : ℝ) : l.foldl max a = a ∨ l.foldl max a ∈ l := by
  induction l generalizing a with
  | nil => simp
  | cons b l ih =>
    simp only [List.foldl_cons, List.mem_cons]
    rcases ih (max a b) with h | h
    · rcases max_choice a b with h' | h'
      · left; rw [h, h']
      · right; left; rw [h, h']
    · exact .inr (.inr h)

theorem maxOf_mem {l : List ℝ} (h : l ≠ []) : maxOf l ∈ l := by
  obtain ⟨a, l, rfl⟩ := List.exists_cons_of_ne_nil h
  unfold maxOf
  rcases foldl_max_mem (a :: l) a with h' | h'
  · simp only [List.headD_cons]
    rw [h']
    simp
  · exact h'

theorem le_maxOf {l : List ℝ} {x : ℝ} (h : x ∈ l) : x ≤ maxOf l := (le_foldl_max l _).2 x h

theorem delay_nonneg (p : Path) (tx rx : Dev) : 0 ≤ p.delay tx rx := by
  have hl := light_pos
  cases p with
  | target pos _ _ _ _ _ =>
    exact div_nonneg (add_nonneg (norm3_nonneg _) (norm3_nonneg _)) hl.le
  | interference _ _ => exact div_nonneg (norm3_nonneg _) hl.le

/-- Contribution of a path to sample `m` of receive antenna `r` before the gain is applied. -/
noncomputable def part (s : Sample) (x : Sig ℂ) (p : Path) (v : ℝ) (r m : Nat) : ℂ :=
  if p.shift s ≤ m ∧ m < p.shift s + x.len then
    (∑ t ∈ range x.streams, (p.response s.tx s.rx s.fc).val r t * x.val t (m - p.shift s)) *
      weight v s.fc s.bw s.time (m - p.shift s)
  else 0

theorem dims {p : Path} {tx rx : Dev} (fc : ℝ)
    (h : p.interferes = true → tx.num = tx.numTx ∧ rx.num = rx.numRx) :
    (p.response tx rx fc).rows = rx.numRx ∧ (p.response tx rx fc).cols = tx.numTx := by
  cases p with
  | target _ _ _ _ _ _ => exact ⟨rfl, rfl⟩
  | interference _ _ => exact ⟨(h rfl).2, (h rfl).1⟩

theorem loop_ok (s : Sample) (x : Sig ℂ) (hx : x.streams = s.tx.numTx) (v : Path → ℝ) (width : Nat) :
    ∀ (ps : List Path), (∀ p ∈ ps, p.interferes = true →
        s.tx.num = s.tx.numTx ∧ s.rx.num = s.rx.numRx) →
      (∀ p ∈ ps, p.shift s + x.len ≤ width) → ∀ y : Nat → Nat → ℂ,
      ∃ z, loop s.tx s.rx x s.bw s.fc s.time width ps (ps.map v) y = .ok z ∧
        ∀ r m, z r m = y r m + (ps.map fun p => part s x p (v p) r m).sum
  | [], _, _, y => ⟨y, rfl, fun r m => by simp⟩
  | p :: ps, hI, hw, y => by
    obtain ⟨h1, h2⟩ := dims s.fc (hI p (by simp))
    have hwp := hw p (by simp)
    unfold Path.shift at hwp
    obtain ⟨z, hz, hv⟩ := loop_ok s x hx v width ps
      (fun q hq => hI q (List.mem_cons_of_mem _ hq)) (fun q hq => hw q (List.mem_cons_of_mem _ hq))
      fun r m => y r m + part s x p (v p) r m
    refine ⟨z, ?_, fun r m => ?_⟩
    · simp only [List.map_cons, loop]
      have : p.addPropagation s.tx s.rx x s.bw s.fc s.time s.rx.numRx width (p.delay s.tx s.rx) (v p) y =
          .ok fun r m => y r m + part s x p (v p) r m := by
        unfold Path.addPropagation einsum
        rw [if_pos (h2.trans hx.symm)]
        dsimp only
        unfold addSlice
        dsimp only
        have hmin : min width (⌊p.delay s.tx s.rx * s.bw⌋₊ + x.len) - ⌊p.delay s.tx s.rx * s.bw⌋₊ =
            x.len := by omega
        rw [hmin, if_pos ⟨.inl h1, .inl rfl⟩]
        congr 1
        funext r m
        unfold part Path.shift
        by_cases hm : ⌊p.delay s.tx s.rx * s.bw⌋₊ ≤ m ∧ m < ⌊p.delay s.tx s.rx * s.bw⌋₊ + x.len
        · rw [if_pos hm, if_pos hm, if_pos h1, if_pos rfl, Finset.sum_mul]
        · rw [if_neg hm, if_neg hm, add_zero]
      rw [this]
      exact hz
    · rw [hv, List.map_cons, List.sum_cons]
      ring

theorem overhead_bounds (s : Sample) (v : Path → ℝ) (n : Nat) (hb : 0 < s.bw)
    (hv : ∀ p ∈ s.paths, |2 * v p * n| < s.bw * light) (hne : s.paths ≠ []) :
    0 ≤ overhead (s.paths.map fun p => p.delay s.tx s.rx) (s.paths.map v) s.bw n ∧
    (∀ p ∈ s.paths,
      (p.shift s : ℤ) ≤ overhead (s.paths.map fun p => p.delay s.tx s.rx) (s.paths.map v) s.bw n) ∧
    ∃ p ∈ s.paths,
      overhead (s.paths.map fun p => p.delay s.tx s.rx) (s.paths.map v) s.bw n ≤ p.shift s + 2 := by
  have hl := light_pos
  have hne1 : s.paths.map (fun p => p.delay s.tx s.rx) ≠ [] := by simpa using hne
  have hne2 : s.paths.map v ≠ [] := by simpa using hne
  unfold overhead
  rw [if_neg hne1]
  obtain ⟨q, hq, hqv⟩ := List.mem_map.mp (maxOf_mem hne2)
  obtain ⟨p, hp, hpd⟩ := List.mem_map.mp (maxOf_mem hne1)
  rw [← hqv]
  have hε := abs_lt.mp (hv q hq)
  have hbl : 0 < s.bw * light := mul_pos hb hl
  have h1 : -1 < 2 * v q * n / (s.bw * light) := by
    rw [lt_div_iff₀ hbl]; linarith
  have h2 : 2 * v q * n / (s.bw * light) < 1 := by
    rw [div_lt_one hbl]; exact hε.2
  generalize 2 * v q * n / (s.bw * light) = ε at h1 h2
  have hall : ∀ p' ∈ s.paths, (p'.shift s : ℤ) ≤
      ⌈maxOf (s.paths.map fun p => p.delay s.tx s.rx) * s.bw + ε⌉ := by
    intro p' hp'
    have hd := le_maxOf (List.mem_map_of_mem (f := fun p => p.delay s.tx s.rx) hp')
    have h3 : ((p'.shift s : ℕ) : ℝ) ≤ p'.delay s.tx s.rx * s.bw :=
      Nat.floor_le (mul_nonneg (delay_nonneg _ _ _) hb.le)
    have h4 : p'.delay s.tx s.rx * s.bw ≤
        maxOf (s.paths.map fun p => p.delay s.tx s.rx) * s.bw := mul_le_mul_of_nonneg_right hd hb.le
    have h5 := Int.le_ceil (maxOf (s.paths.map fun p => p.delay s.tx s.rx) * s.bw + ε)
    have h6 : ((p'.shift s : ℤ) : ℝ) - 1 <
        (⌈maxOf (s.paths.map fun p => p.delay s.tx s.rx) * s.bw + ε⌉ : ℝ) := by
      push_cast
      linarith
    have h7 : (p'.shift s : ℤ) - 1 < ⌈maxOf (s.paths.map fun p => p.delay s.tx s.rx) * s.bw + ε⌉ := by
      exact_mod_cast h6
    omega
  refine ⟨?_, hall, p, hp, ?_⟩
  · exact (Int.natCast_nonneg _).trans (hall p hp)
  · rw [← hpd]
    have h3 : p.delay s.tx s.rx * s.bw < (p.shift s : ℝ) + 1 := Nat.lt_floor_add_one _
    rw [Int.ceil_le]
    push_cast
    linarith

/-- C77: a signal propagated over a radar channel is the superposition of its echoes: every path delays the
signal by the whole number of samples its delay lasts, weights it by the antenna responses, shifts it in
frequency and scales it by the square root of the gain.  No part of an echo is cut off, and at most two
samples are appended after the last one.  Holds for all signals short enough that no path changes by a
sample (`C77_length_fails` for longer ones) and for devices all of whose antennas both transmit and
receive if there is interference (`C77_interference_fails` otherwise). -/
theorem C77_propagate_partial (s : Sample) (x : Sig ℂ) (v : Path → ℝ) (hb : 0 < s.bw)
    (hx : x.streams = s.tx.numTx) (hv : ∀ p ∈ s.paths, p.velocity s.tx s.rx = .ok (v p))
    (hs : ∀ p ∈ s.paths, |2 * v p * x.len| < s.bw * light)
    (hI : ∀ p ∈ s.paths, p.interferes = true → s.tx.num = s.tx.numTx ∧ s.rx.num = s.rx.numRx) :
    ∃ y : Sig ℂ, s.propagate x = .ok y ∧ y.streams = s.rx.numRx ∧
      (∀ p ∈ s.paths, ⌊p.delay s.tx s.rx * s.bw⌋₊ + x.len ≤ y.len) ∧
      (s.paths = [] → y.len = x.len) ∧
      (s.paths ≠ [] → ∃ p ∈ s.paths, y.len ≤ ⌊p.delay s.tx s.rx * s.bw⌋₊ + x.len + 2) ∧
      ∀ r m, y.val r m = Real.sqrt s.gain * (s.paths.map fun p =>
        let d := ⌊p.delay s.tx s.rx * s.bw⌋₊
        if d ≤ m ∧ m < d + x.len then
          (∑ t ∈ range s.tx.numTx, (p.response s.tx s.rx s.fc).val r t * x.val t (m - d)) *
            Complex.exp (2 * Real.pi * Complex.I *
              ((v p * s.fc / light * (s.time + (m - d : ℕ) / s.bw) : ℝ) : ℂ))
        else 0).sum := by
  have key : ∀ len : ℤ, len = x.len + overhead (s.paths.map fun p => p.delay s.tx s.rx)
      (s.paths.map v) s.bw x.len → 0 ≤ len → (∀ p ∈ s.paths, p.shift s + x.len ≤ len.toNat) →
      (s.paths = [] → len.toNat = x.len) →
      (s.paths ≠ [] → ∃ p ∈ s.paths, len.toNat ≤ p.shift s + x.len + 2) →
      ∃ y : Sig ℂ, s.propagate x = .ok y ∧ y.streams = s.rx.numRx ∧
      (∀ p ∈ s.paths, ⌊p.delay s.tx s.rx * s.bw⌋₊ + x.len ≤ y.len) ∧
      (s.paths = [] → y.len = x.len) ∧
      (s.paths ≠ [] → ∃ p ∈ s.paths, y.len ≤ ⌊p.delay s.tx s.rx * s.bw⌋₊ + x.len + 2) ∧
      ∀ r m, y.val r m = Real.sqrt s.gain * (s.paths.map fun p => part s x p (v p) r m).sum := by
    intro len hlen h0 hw h1 h2
    obtain ⟨z, hz, hval⟩ := loop_ok s x hx v len.toNat s.paths hI hw fun _ _ => 0
    refine ⟨⟨s.rx.numRx, len.toNat, fun r m => z r m * (Real.sqrt s.gain : ℝ)⟩, ?_, rfl, hw, h1, h2,
      fun r m => ?_⟩
    · unfold Sample.propagate
      rw [velocities_map hv]
      dsimp only
      rw [← hlen, if_neg (by omega), hz]
    · dsimp only
      rw [hval]
      ring
  have hfin : ∃ y : Sig ℂ, s.propagate x = .ok y ∧ y.streams = s.rx.numRx ∧
      (∀ p ∈ s.paths, ⌊p.delay s.tx s.rx * s.bw⌋₊ + x.len ≤ y.len) ∧
      (s.paths = [] → y.len = x.len) ∧
      (s.paths ≠ [] → ∃ p ∈ s.paths, y.len ≤ ⌊p.delay s.tx s.rx * s.bw⌋₊ + x.len + 2) ∧
      ∀ r m, y.val r m = Real.sqrt s.gain * (s.paths.map fun p => part s x p (v p) r m).sum := by
    by_cases hne : s.paths = []
    · refine key x.len ?_ (by omega) ?_ (fun _ => by omega) (fun h => absurd hne h)
      · simp [overhead, hne]
      · simp [hne]
    · obtain ⟨h0, h1, p, hp, h2⟩ := overhead_bounds s v x.len hb hs hne
      refine key _ rfl (by omega) (fun q hq => ?_) (fun h => absurd h hne) fun _ => ⟨p, hp, ?_⟩
      · have := h1 q hq
        omega
      · omega
  obtain ⟨y, h1, h2, h3, h4, h5, h6⟩ := hfin
  refine ⟨y, h1, h2, h3, h4, h5, fun r m => ?_⟩
  rw [h6]
  unfold part weight Path.shift
  rw [hx]

end Verif.RadarChannel
