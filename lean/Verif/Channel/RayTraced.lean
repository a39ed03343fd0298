import Verif.Channel.State
import Mathlib.Analysis.SpecialFunctions.Complex.Circle
import Mathlib.Analysis.SpecialFunctions.Pow.Real
import Mathlib.Tactic.Linarith

/-!
# Ray traced channels

`hermespy/channel/sionna_rt_channel.py` together with the wrapper `ChannelSample.propagate` of
`hermespy/channel/channel.py`.  The ray tracer of the Sionna library is a contract, `Tracer`.  Signal blocks are
given by their samples and their offset; noise powers, carrier frequencies and delays of signals are not modelled.
-/

namespace Verif.RayTraced

open Finset Verif.Channel.State
open Verif (PyErr)

/-- A path reported by Sionna (`rt.Paths`): its delay in seconds, which is −1 for padding, its gain and its Doppler
frequency.  Both arrays passed to the tracer have a single antenna (channel/sionna_rt_channel.py 238-245), so there
is one gain for a path. -/
structure Path where
  tau : ℝ
  a : ℂ
  nu : ℝ

/-- `SionnaRTChannelSample`, channel/sionna_rt_channel.py 32-69: the paths, the power gain, and what is read from the
link state: bandwidth, antennas and sampling rates of the devices. -/
structure Sample where
  paths : List Path
  gain : ℝ
  bw : ℝ
  rx : Nat
  tx : Nat
  rateTx : ℝ
  rateRx : ℝ

/-- Gain of a path at a sampling instant as returned by `paths.cir`, channel/sionna_rt_channel.py 93-98 and 142-147. -/
noncomputable def Sample.coef (s : Sample) (p : Path) (n : Nat) : ℂ :=
  p.a * Complex.exp (2 * Real.pi * Complex.I * p.nu * (n / s.bw))

/-- `expected_energy_scale`, channel/sionna_rt_channel.py 81. -/
noncomputable def Sample.energy (s : Sample) : ℝ := ‖(s.paths.map Path.a).sum‖

/-- `np.max(tau)`, channel/sionna_rt_channel.py 105 and 161, zero if there is no path. -/
noncomputable def maxTau : List Path → ℝ
  | [] => 0
  | p :: ps => ps.foldl (fun m q => max m q.tau) p.tau

/-- `ceil(max_delay * self.bandwidth)`, channel/sionna_rt_channel.py 106 and 162. -/
noncomputable def Sample.maxSteps (s : Sample) : ℤ := ⌈maxTau s.paths * s.bw⌉

/-- `int(tau_p * self.bandwidth)`, channel/sionna_rt_channel.py 123 and 177, of delays which are not negative; other
delays are skipped, apart from negative ones different from −1 in line 175, which Sionna does not report. -/
noncomputable def Sample.steps (s : Sample) (p : Path) : Nat := ⌊p.tau * s.bw⌋.toNat

/-- The loop over all paths of `state`, channel/sionna_rt_channel.py 120-127.  The gains of a path, an array of one
receiving and one transmitting antenna, are broadcast to all of them. -/
noncomputable def stateLoop (s : Sample) (taps : Nat) : List Path → (Nat → Nat → ℂ) → Nat → Nat → ℂ
  | [], h => h
  | p :: ps, h => open Classical in
    if p.tau < 0 then stateLoop s taps ps h
    else if taps ≤ s.steps p then stateLoop s taps ps h
    else stateLoop s taps ps fun n k => if k = s.steps p then h n k + s.coef p n else h n k

/-- `SionnaRTChannelSample.state`, channel/sionna_rt_channel.py 84-130.  `np.zeros` refuses negative sizes. -/
noncomputable def Sample.state (s : Sample) (num taps : Nat) : Except PyErr (Csi ℂ) :=
  let inf : ℤ := 1 + min (taps : ℤ) s.maxSteps
  if inf < 0 then .error .value
  else create .impulse s.rx s.tx num inf.toNat
    (fun _ _ n k => stateLoop s taps s.paths (fun _ _ => 0) n k * (Real.sqrt s.gain : ℂ)) none none

/-- The loop over all paths of `_propagate`, channel/sionna_rt_channel.py 174-180.  `einsum` broadcasts the single
antenna of the gains to all streams and sums over them, the addition broadcasts the single row to all receiving
antennas. -/
noncomputable def propagateLoop (s : Sample) (x : Sig ℂ) : List Path → (Nat → ℂ) → Nat → ℂ
  | [], y => y
  | p :: ps, y => open Classical in
    if p.tau = -1 then propagateLoop s x ps y
    else propagateLoop s x ps fun m => if s.steps p ≤ m ∧ m < s.steps p + x.len then
      y m + ∑ t ∈ range x.streams, s.coef p (m - s.steps p) * x.val t (m - s.steps p) else y m

/-- `int(signal.offset * sr_ratio)`, channel/sionna_rt_channel.py 135 and 136; also the number of samples in line
138. -/
noncomputable def Sample.scaled (s : Sample) (n : Nat) : Nat := ⌊n * (s.rateRx / s.rateTx)⌋.toNat

/-- `SionnaRTChannelSample._propagate`, channel/sionna_rt_channel.py 133-188, of the samples of a block. -/
noncomputable def Sample.block (s : Sample) (x : Sig ℂ) : Except PyErr (Sig ℂ) :=
  if s.paths = [] then .ok ⟨s.rx, s.scaled x.len, fun _ _ => 0⟩
  else
    let len : ℤ := x.len + s.maxSteps
    if len < 0 then .error .value
    else .ok ⟨s.rx, len.toNat, fun _ m => propagateLoop s x s.paths (fun _ => 0) m * (Real.sqrt s.gain : ℂ)⟩

/-- `ChannelSample.propagate`, channel/channel.py 352-379, of a signal of one block, with the offset of the block. -/
noncomputable def Sample.propagate (s : Sample) (x : Sig ℂ) (offset : Nat) : Except PyErr (Sig ℂ × Nat) :=
  open Classical in
  if s.energy ≤ 0 then .ok (⟨s.rx, 0, fun _ _ => 0⟩, 0)
  else if x.streams ≠ s.tx then .error .value
  else (s.block x).map fun y => (y, s.scaled offset)

/-- Points and velocities. -/
abbrev Vec := Fin 3 → ℝ

/-- What a channel knows of a device, simulation/simulated_device.py `SimulatedDeviceState`: position, velocity,
carrier frequency, sampling rate, and the positions of transmitting and receiving antennas. -/
structure Dev where
  pos : Vec
  vel : Vec
  carrier : ℝ
  rate : ℝ
  txAnt : List Vec
  rxAnt : List Vec

/-- `LinkState`, channel/channel.py 107-148. -/
structure Link where
  tx : Dev
  rx : Dev
  carrier : ℝ
  bw : ℝ

/-- The ray tracer (`rt.PathSolver`) in a given scene: positions and velocities of transmitter and receiver, their
antennas relative to them, and the frequency determine the paths.  Nothing but moving devices shifts frequencies, as
scenes loaded from a file are at rest. -/
structure Tracer where
  solve : Vec → Vec → Vec → Vec → ℝ → List Path
  still : ∀ p q f, ∀ x ∈ solve p q 0 0 f, x.nu = 0

/-- `SionnaRTChannelRealization._sample`, channel/sionna_rt_channel.py 230-268: transmitter and receiver are added
with their positions only, and the frequency is the transmitter's. -/
def sample (tr : Tracer) (gain : ℝ) (l : Link) : Sample where
  paths := tr.solve l.tx.pos l.rx.pos 0 0 l.tx.carrier
  gain := gain
  bw := l.bw
  rx := l.rx.rxAnt.length
  tx := l.tx.txAnt.length
  rateTx := l.tx.rate
  rateRx := l.rx.rate

/-- `_reciprocal_sample`, channel/sionna_rt_channel.py 271-274. -/
def reciprocal (tr : Tracer) (gain : ℝ) (_ : Sample) (l : Link) : Sample := sample tr gain l

/-! ## Lemmas -/

theorem foldl_le (ps : List Path) (m : ℝ) :
    m ≤ ps.foldl (fun m q => max m q.tau) m ∧ ∀ p ∈ ps, p.tau ≤ ps.foldl (fun m q => max m q.tau) m := by
  induction ps generalizing m with
  | nil => simp
  | cons q ps ih =>
    obtain ⟨h1, h2⟩ := ih (max m q.tau)
    refine ⟨le_trans (le_max_left _ _) h1, fun p hp => ?_⟩
    rcases List.mem_cons.mp hp with rfl | hp
    · exact le_trans (le_max_right _ _) h1
    · exact h2 p hp

theorem le_maxTau (ps : List Path) (p : Path) (hp : p ∈ ps) : p.tau ≤ maxTau ps := by
  cases ps with
  | nil => simp at hp
  | cons q ps =>
    rcases List.mem_cons.mp hp with rfl | hp
    · exact (foldl_le ps p.tau).1
    · exact (foldl_le ps q.tau).2 p hp

theorem foldl_mem (ps : List Path) (m : ℝ) :
    ps.foldl (fun m q => max m q.tau) m = m ∨ ∃ p ∈ ps, ps.foldl (fun m q => max m q.tau) m = p.tau := by
  induction ps generalizing m with
  | nil => simp
  | cons q ps ih =>
    rcases ih (max m q.tau) with h | ⟨p, hp, h⟩
    · rcases max_choice m q.tau with e | e
      · exact Or.inl (by rw [List.foldl_cons, h, e])
      · exact Or.inr ⟨q, List.mem_cons_self, by rw [List.foldl_cons, h, e]⟩
    · exact Or.inr ⟨p, List.mem_cons_of_mem _ hp, by rw [List.foldl_cons, h]⟩

theorem maxTau_mem (ps : List Path) (h : ps ≠ []) : ∃ p ∈ ps, maxTau ps = p.tau := by
  cases ps with
  | nil => exact absurd rfl h
  | cons q ps =>
    rcases foldl_mem ps q.tau with e | ⟨p, hp, e⟩
    · exact ⟨q, List.mem_cons_self, e⟩
    · exact ⟨p, List.mem_cons_of_mem _ hp, e⟩

theorem steps_le (s : Sample) (hb : 0 ≤ s.bw) (p : Path) (hp : p ∈ s.paths) (h0 : 0 ≤ p.tau) :
    (s.steps p : ℤ) ≤ s.maxSteps := by
  have h1 : 0 ≤ ⌊p.tau * s.bw⌋ := Int.floor_nonneg.mpr (mul_nonneg h0 hb)
  have h2 : ⌊p.tau * s.bw⌋ ≤ s.maxSteps :=
    le_trans (Int.floor_le_ceil _) (Int.ceil_le_ceil (mul_le_mul_of_nonneg_right (le_maxTau _ p hp) hb))
  unfold Sample.steps
  omega

theorem stateLoop_eq (s : Sample) (taps : Nat) (ps : List Path) (h : Nat → Nat → ℂ) (n k : Nat) :
    stateLoop s taps ps h n k = h n k +
      (ps.map fun p => if 0 ≤ p.tau ∧ s.steps p = k ∧ k < taps then s.coef p n else 0).sum := by
  induction ps generalizing h with
  | nil => simp [stateLoop]
  | cons p ps ih =>
    unfold stateLoop
    by_cases h1 : p.tau < 0
    · rw [if_pos h1, ih, List.map_cons, List.sum_cons, if_neg (fun c => absurd c.1 (not_le.mpr h1)), zero_add]
    · rw [if_neg h1]
      by_cases h2 : taps ≤ s.steps p
      · rw [if_pos h2, ih, List.map_cons, List.sum_cons, if_neg (by rintro ⟨_, rfl, h⟩; omega), zero_add]
      · rw [if_neg h2, ih, List.map_cons, List.sum_cons]
        by_cases h3 : k = s.steps p
        · rw [if_pos h3, if_pos ⟨not_lt.mp h1, h3.symm, by omega⟩, add_assoc]
        · rw [if_neg h3, if_neg (fun c => h3 c.2.1.symm), zero_add]

theorem propagateLoop_eq (s : Sample) (x : Sig ℂ) (ps : List Path) (hp : ∀ p ∈ ps, p.tau = -1 ∨ 0 ≤ p.tau)
    (y : Nat → ℂ) (m : Nat) :
    propagateLoop s x ps y m = y m +
      (ps.map fun p => if 0 ≤ p.tau ∧ s.steps p ≤ m ∧ m < s.steps p + x.len then
        s.coef p (m - s.steps p) * ∑ t ∈ range x.streams, x.val t (m - s.steps p) else 0).sum := by
  induction ps generalizing y with
  | nil => simp [propagateLoop]
  | cons p ps ih =>
    have ih' := ih fun q hq => hp q (List.mem_cons_of_mem _ hq)
    unfold propagateLoop
    rcases hp p List.mem_cons_self with h1 | h1
    · rw [if_pos h1, ih', List.map_cons, List.sum_cons, if_neg (by rw [h1]; norm_num), zero_add]
    · rw [if_neg (by linarith), ih', List.map_cons, List.sum_cons]
      by_cases h2 : s.steps p ≤ m ∧ m < s.steps p + x.len
      · rw [if_pos h2, if_pos ⟨h1, h2⟩, add_assoc, Finset.mul_sum]
      · rw [if_neg h2, if_neg (fun c => h2 c.2), zero_add]

theorem state_ok (s : Sample) (num taps T : Nat) (h : min (taps : ℤ) s.maxSteps = T) :
    s.state num taps = .ok ⟨.impulse, s.rx, s.tx, num, 1 + T,
      fun _ _ n k => stateLoop s taps s.paths (fun _ _ => 0) n k * (Real.sqrt s.gain : ℂ), 1 + T, 1 + T⟩ := by
  unfold Sample.state
  dsimp only
  rw [h, if_neg (by omega), show (1 + (T : ℤ)).toNat = 1 + T by omega]
  unfold create
  simp

/-! ## Properties -/

/-- C130: the propagation equation.  Provided the gains of the paths do not cancel, the signal arriving at every
antenna is the sum over all streams and all paths of the signal delayed by the path, weighted with its gain at the time
of sending and the root of the channel's gain.  It is longer than the signal by the largest delay, rounded up. -/
theorem C130_propagate_partial (s : Sample) (x : Sig ℂ) (offset : Nat) (hb : 0 ≤ s.bw) (hx : x.streams = s.tx)
    (hr : s.rateRx = s.rateTx) (h0 : s.rateTx ≠ 0)
    (hp : ∀ p ∈ s.paths, p.tau = -1 ∨ 0 ≤ p.tau) (hv : ∃ p ∈ s.paths, 0 ≤ p.tau)
    (hsum : (s.paths.map Path.a).sum ≠ 0) :
    ∃ y : Sig ℂ, s.propagate x offset = .ok (y, offset) ∧ y.streams = s.rx ∧
      (y.len : ℤ) = x.len + ⌈maxTau s.paths * s.bw⌉ ∧
      ∀ r < s.rx, ∀ m, y.val r m = Real.sqrt s.gain * ∑ t ∈ range s.tx, (s.paths.map fun p =>
        if 0 ≤ p.tau ∧ ⌊p.tau * s.bw⌋.toNat ≤ m ∧ m < ⌊p.tau * s.bw⌋.toNat + x.len then
          p.a * Complex.exp (2 * Real.pi * Complex.I * p.nu * ((m - ⌊p.tau * s.bw⌋.toNat : ℕ) / s.bw)) *
            x.val t (m - ⌊p.tau * s.bw⌋.toNat) else 0).sum := by
  obtain ⟨p0, hp0, hp0'⟩ := hv
  have hne : s.paths ≠ [] := List.ne_nil_of_mem hp0
  have hms : 0 ≤ s.maxSteps := le_trans (Int.natCast_nonneg _) (steps_le s hb p0 hp0 hp0')
  have hen : ¬ s.energy ≤ 0 := by
    unfold Sample.energy
    exact not_le.mpr (norm_pos_iff.mpr hsum)
  have hsc : s.scaled offset = offset := by
    unfold Sample.scaled
    rw [hr, div_self h0, mul_one]
    simp
  refine ⟨⟨s.rx, (x.len + s.maxSteps).toNat,
    fun _ m => propagateLoop s x s.paths (fun _ => 0) m * (Real.sqrt s.gain : ℂ)⟩, ?_, rfl, ?_, ?_⟩
  · unfold Sample.propagate Sample.block
    rw [if_neg hen, if_neg (by simpa using hx), if_neg hne, hsc]
    dsimp only
    rw [if_neg (by omega)]
    rfl
  · show (((x.len : ℤ) + s.maxSteps).toNat : ℤ) = _
    rw [Int.toNat_of_nonneg (by omega)]
    rfl
  · intro r _ m
    dsimp only
    rw [propagateLoop_eq s x s.paths hp, zero_add, mul_comm, hx]
    congr 1
    have key : ∀ ps : List Path, (ps.map fun p => if 0 ≤ p.tau ∧ s.steps p ≤ m ∧ m < s.steps p + x.len then
        s.coef p (m - s.steps p) * ∑ t ∈ range s.tx, x.val t (m - s.steps p) else 0).sum =
        ∑ t ∈ range s.tx, (ps.map fun p => if 0 ≤ p.tau ∧ s.steps p ≤ m ∧ m < s.steps p + x.len then
        s.coef p (m - s.steps p) * x.val t (m - s.steps p) else 0).sum := by
      intro ps
      induction ps with
      | nil => simp
      | cons p ps ih =>
        simp only [List.map_cons, List.sum_cons]
        rw [ih, Finset.sum_add_distrib]
        congr 1
        split
        · rw [Finset.mul_sum]
        · simp
    exact key s.paths

/-- C130: whenever all delays are below the number of taps requested and the gains do not cancel, the state of a
sample predicts the signal propagated over it: same streams, same length, same samples.  Missing: `C130_cancel_fails`
and `C130_taps_fails`. -/
theorem C130_state_partial (s : Sample) (x : Sig ℂ) (offset taps : Nat) (hb : 0 ≤ s.bw) (hx : x.streams = s.tx)
    (hr : s.rateRx = s.rateTx) (h0 : s.rateTx ≠ 0)
    (hp : ∀ p ∈ s.paths, p.tau = -1 ∨ 0 ≤ p.tau) (hv : ∃ p ∈ s.paths, 0 ≤ p.tau)
    (hsum : (s.paths.map Path.a).sum ≠ 0) (ht : ∀ p ∈ s.paths, p.tau * s.bw < taps) :
    ∃ (c : Csi ℂ) (y z : Sig ℂ), s.state x.len taps = .ok c ∧ s.propagate x offset = .ok (y, offset) ∧
      Verif.Channel.State.propagate c x = .ok z ∧ y.streams = z.streams ∧ y.len = z.len ∧
      ∀ r < y.streams, ∀ m, y.val r m = z.val r m := by
  obtain ⟨y, hy, hys, hyl, hyv⟩ := C130_propagate_partial s x offset hb hx hr h0 hp hv hsum
  obtain ⟨p0, hp0, hp0'⟩ := hv
  have hne : s.paths ≠ [] := List.ne_nil_of_mem hp0
  have hms : 0 ≤ s.maxSteps := le_trans (Int.natCast_nonneg _) (steps_le s hb p0 hp0 hp0')
  have hmt : s.maxSteps ≤ taps := by
    obtain ⟨q, hq, e⟩ := maxTau_mem s.paths hne
    unfold Sample.maxSteps
    rw [e]
    exact Int.ceil_le.mpr (by exact_mod_cast (ht q hq).le)
  obtain ⟨T, hT⟩ : ∃ T : ℕ, s.maxSteps = T := ⟨s.maxSteps.toNat, by omega⟩
  have hinf : (1 + min (taps : ℤ) s.maxSteps).toNat = 1 + T := by omega
  have hneg : ¬ (1 + min (taps : ℤ) s.maxSteps) < 0 := by omega
  obtain ⟨z, hz, hzs, hzl, hzv⟩ := C69_propagate
    (⟨.impulse, s.rx, s.tx, x.len, 1 + T,
      fun _ _ n k => stateLoop s taps s.paths (fun _ _ => 0) n k * (Real.sqrt s.gain : ℂ), 1 + T, 1 + T⟩ : Csi ℂ) x
    (by dsimp only; omega) (Or.inl le_rfl) (by dsimp only; omega)
  refine ⟨_, y, z, ?_, hy, hz, ?_, ?_, ?_⟩
  · unfold Sample.state
    dsimp only
    rw [if_neg hneg, hinf]
    unfold create
    simp
  · rw [hys, hzs]
  · have : (y.len : ℤ) = x.len + s.maxSteps := hyl
    rw [hzl]
    dsimp only
    omega
  · intro r hr' m
    rw [hys] at hr'
    rw [hyv r hr' m, hzv r hr' m, Finset.mul_sum]
    refine Finset.sum_congr rfl fun t _ => ?_
    dsimp only
    have hst : ∀ p ∈ s.paths, 0 ≤ p.tau → s.steps p < taps ∧ s.steps p < 1 + T := by
      intro p hp' h
      have h1 := steps_le s hb p hp' h
      have h2 : ⌊p.tau * s.bw⌋ < taps := Int.floor_lt.mpr (by exact_mod_cast ht p hp')
      have h3 : 0 ≤ ⌊p.tau * s.bw⌋ := Int.floor_nonneg.mpr (mul_nonneg h hb)
      have h4 : s.steps p = ⌊p.tau * s.bw⌋.toNat := rfl
      omega
    have h1 : ∀ k ∈ range (1 + T), (if k ≤ m ∧ m < k + x.len then
        stateLoop s taps s.paths (fun _ _ => 0) (if x.len = 1 then 0 else m - k) k * (Real.sqrt s.gain : ℂ) *
          x.val t (m - k) else 0) =
        Real.sqrt s.gain * (s.paths.map fun p => if 0 ≤ p.tau ∧ s.steps p = k ∧ k < taps then
          (if k ≤ m ∧ m < k + x.len then s.coef p (m - k) * x.val t (m - k) else 0) else 0).sum := by
      intro k _
      by_cases h : k ≤ m ∧ m < k + x.len
      · have hi : (if x.len = 1 then 0 else m - k) = m - k := by split <;> omega
        rw [if_pos h, hi, stateLoop_eq, zero_add]
        have : ∀ ps : List Path, (ps.map fun p => if 0 ≤ p.tau ∧ s.steps p = k ∧ k < taps then
            s.coef p (m - k) else 0).sum * x.val t (m - k) = (ps.map fun p =>
            if 0 ≤ p.tau ∧ s.steps p = k ∧ k < taps then s.coef p (m - k) * x.val t (m - k) else 0).sum := by
          intro ps
          rw [← List.sum_map_mul_right]
          congr 1
          refine List.map_congr_left fun p _ => ?_
          split <;> simp
        rw [mul_right_comm, this, mul_comm]
        congr 3
        funext p
        simp [h]
      · simp [h]
    rw [Finset.sum_congr rfl h1, ← Finset.mul_sum]
    congr 1
    have swap : ∀ ps : List Path, (∀ p ∈ ps, p ∈ s.paths) →
        ∑ k ∈ range (1 + T), (ps.map fun p => if 0 ≤ p.tau ∧ s.steps p = k ∧ k < taps then
          (if k ≤ m ∧ m < k + x.len then s.coef p (m - k) * x.val t (m - k) else 0) else 0).sum =
        (ps.map fun p => if 0 ≤ p.tau ∧ s.steps p ≤ m ∧ m < s.steps p + x.len then
          s.coef p (m - s.steps p) * x.val t (m - s.steps p) else 0).sum := by
      intro ps hps
      induction ps with
      | nil => simp
      | cons p ps ih =>
        simp only [List.map_cons, List.sum_cons]
        rw [Finset.sum_add_distrib, ih fun q hq => hps q (List.mem_cons_of_mem _ hq)]
        congr 1
        by_cases h : 0 ≤ p.tau
        · obtain ⟨ha, hb'⟩ := hst p (hps p List.mem_cons_self) h
          rw [Finset.sum_eq_single (s.steps p)]
          · rw [if_pos ⟨h, rfl, ha⟩]
            simp [h]
          · intro k _ hk
            rw [if_neg fun c => hk c.2.1.symm]
          · intro hk
            exact absurd (Finset.mem_range.mpr hb') hk
        · simp [h]
    exact (swap s.paths fun _ h => h).symm

/-- C130: the signals arriving at all antennas are the same. -/
theorem C130_antennas_fails (s : Sample) (x : Sig ℂ) (offset num taps : Nat) :
    (∀ y o, s.propagate x offset = .ok (y, o) → ∀ r r' m, y.val r m = y.val r' m) ∧
    (∀ c, s.state num taps = .ok c → ∀ r t r' t' n k, c.st r t n k = c.st r' t' n k) := by
  constructor
  · intro y o h r r' m
    unfold Sample.propagate at h
    split at h
    · cases h; rfl
    · split at h
      · cases h
      · unfold Sample.block at h
        split at h
        · cases h; rfl
        · dsimp only at h
          split at h
          · cases h
          · cases h; rfl
  · intro c h r t r' t' n k
    unfold Sample.state at h
    dsimp only at h
    split at h
    · cases h
    · unfold create at h
      simp at h
      rw [← h]

/-- C130: the tap with the greatest index of a state limited to fewer taps than the delays need is empty, the path which
arrives then is missing. -/
theorem C130_taps_fails :
    ∃ (s : Sample) (c : Csi ℂ) (y : Sig ℂ), s.state 1 1 = .ok c ∧ c.inf = 2 ∧ (∀ r t n, c.st r t n 1 = 0) ∧
      s.propagate ⟨1, 1, fun _ _ => 1⟩ 0 = .ok (y, 0) ∧ y.len = 2 ∧ y.val 0 1 = 1 := by
  let s : Sample := ⟨[⟨1, 1, 0⟩], 1, 1, 1, 1, 1, 1⟩
  have hp : ∀ p ∈ s.paths, p.tau = -1 ∨ 0 ≤ p.tau := by intro p hp; simp [s] at hp; subst hp; right; norm_num
  obtain ⟨y, hy, _, hyl, hyv⟩ := C130_propagate_partial s ⟨1, 1, fun _ _ => 1⟩ 0 (by norm_num [s]) rfl rfl
    (by norm_num [s]) hp ⟨⟨1, 1, 0⟩, by simp [s], by norm_num⟩ (by simp [s])
  have hm : s.maxSteps = 1 := by simp [Sample.maxSteps, maxTau, s]
  refine ⟨s, _, y, state_ok s 1 1 1 (by rw [hm]; rfl), rfl, ?_, hy, ?_, ?_⟩
  · intro r t n
    dsimp only
    rw [stateLoop_eq]
    simp
  · have : (y.len : ℤ) = 1 + 1 := by rw [hyl]; simp [maxTau, s]
    omega
  · rw [hyv 0 (by simp [s]) 1]
    simp [s]

/-- C130: if the gains of the paths add up to zero, whatever their delays, the propagated signal has no samples. -/
theorem C130_cancel_fails (s : Sample) (x : Sig ℂ) (offset : Nat) (h : (s.paths.map Path.a).sum = 0) :
    ∃ y, s.propagate x offset = .ok (y, 0) ∧ y.len = 0 := by
  refine ⟨⟨s.rx, 0, fun _ _ => 0⟩, ?_, rfl⟩
  unfold Sample.propagate Sample.energy
  rw [if_pos (by rw [h]; simp)]

/-- C130: this happens to paths arriving one after the other, which the state shows. -/
example : ∃ (s : Sample) (c : Csi ℂ) (y : Sig ℂ), (s.paths.map Path.a).sum = 0 ∧ s.state 1 2 = .ok c ∧
    c.st 0 0 0 0 = 1 ∧ c.st 0 0 0 1 = -1 ∧ s.propagate ⟨1, 1, fun _ _ => 1⟩ 0 = .ok (y, 0) ∧ y.len = 0 := by
  let s : Sample := ⟨[⟨0, 1, 0⟩, ⟨1, -1, 0⟩], 1, 1, 1, 1, 1, 1⟩
  have hm : s.maxSteps = 1 := by simp [Sample.maxSteps, maxTau, s]
  obtain ⟨y, hy, hl⟩ := C130_cancel_fails s ⟨1, 1, fun _ _ => 1⟩ 0 (by simp [s])
  refine ⟨s, _, y, by simp [s], state_ok s 1 2 1 (by rw [hm]; rfl), ?_, ?_, hy, hl⟩
  all_goals
    dsimp only
    rw [stateLoop_eq]
    simp [s, Sample.steps, Sample.coef]

/-- C130: the amplitude of the propagated signal follows the gain of the channel, its power is proportional to it. -/
theorem C130_gain (s : Sample) (x : Sig ℂ) (offset : Nat) (g : ℝ) (hg : 0 ≤ g) (y : Sig ℂ) (o : Nat)
    (h : s.propagate x offset = .ok (y, o)) :
    ∃ z : Sig ℂ, { s with gain := g * s.gain }.propagate x offset = .ok (z, o) ∧ z.streams = y.streams ∧
      z.len = y.len ∧ ∀ r m, z.val r m = Real.sqrt g * y.val r m := by
  have hl : ∀ (ps : List Path) (w : Nat → ℂ), propagateLoop { s with gain := g * s.gain } x ps w =
      propagateLoop s x ps w := by
    intro ps
    induction ps with
    | nil => intro w; rfl
    | cons p ps ih =>
      intro w
      unfold propagateLoop
      rw [ih, ih]
      rfl
  unfold Sample.propagate at h ⊢
  have e1 : ({ s with gain := g * s.gain } : Sample).energy = s.energy := rfl
  rw [e1]
  split at h
  · rename_i h1
    cases h
    rw [if_pos h1]
    exact ⟨_, rfl, rfl, rfl, fun r m => by simp⟩
  · rename_i h1
    rw [if_neg h1]
    dsimp only
    split at h
    · cases h
    · rename_i h2
      rw [if_neg h2]
      unfold Sample.block at h ⊢
      dsimp only
      split at h
      · rename_i h3
        cases h
        rw [if_pos h3]
        exact ⟨_, rfl, rfl, rfl, fun r m => by simp⟩
      · rename_i h3
        rw [if_neg h3]
        dsimp only at h
        have e2 : ({ s with gain := g * s.gain } : Sample).maxSteps = s.maxSteps := rfl
        rw [e2]
        split at h
        · cases h
        · rename_i h4
          cases h
          rw [if_neg h4]
          refine ⟨_, rfl, rfl, rfl, fun r m => ?_⟩
          dsimp only
          rw [hl, Real.sqrt_mul hg]
          push_cast
          ring

example : ∃ (s : Sample) (x y : Sig ℂ) (o : Nat), s.propagate x 3 = .ok (y, o) ∧ y.len = 4 := by
  let s : Sample := ⟨[⟨0, 1, 0⟩, ⟨5 / 2, 1, 0⟩, ⟨-1, 0, 0⟩], 1, 1, 1, 1, 1, 1⟩
  have hp : ∀ p ∈ s.paths, p.tau = -1 ∨ 0 ≤ p.tau := by
    intro p hp
    simp [s] at hp
    rcases hp with rfl | rfl | rfl <;> norm_num
  obtain ⟨y, hy, _, hyl, _⟩ := C130_propagate_partial s ⟨1, 1, fun _ _ => 1⟩ 3 (by norm_num [s]) rfl rfl
    (by norm_num [s]) hp ⟨⟨0, 1, 0⟩, by simp [s], by norm_num⟩ (by simp [s])
  refine ⟨s, _, y, _, hy, ?_⟩
  have hc : ⌈(5 / 2 : ℝ)⌉ = 3 := by rw [Int.ceil_eq_iff]; norm_num
  have : (y.len : ℤ) = 1 + 3 := by
    rw [hyl]
    have : maxTau s.paths * s.bw = 5 / 2 := by norm_num [maxTau, s]
    rw [this, hc]; rfl
  omega

example : ∃ (s : Sample) (x y z : Sig ℂ) (c : Csi ℂ), s.state x.len 3 = .ok c ∧ s.propagate x 0 = .ok (y, 0) ∧
    Verif.Channel.State.propagate c x = .ok z ∧ y.len = z.len := by
  let s : Sample := ⟨[⟨0, 1, 0⟩, ⟨5 / 2, 1, 0⟩, ⟨-1, 0, 0⟩], 1, 1, 2, 1, 1, 1⟩
  have hp : ∀ p ∈ s.paths, (p.tau = -1 ∨ 0 ≤ p.tau) ∧ p.tau * s.bw < (3 : ℕ) := by
    intro p hp
    simp [s] at hp
    rcases hp with rfl | rfl | rfl <;> norm_num [s]
  obtain ⟨c, y, z, h1, h2, h3, _, h4, _⟩ := C130_state_partial s ⟨1, 4, fun _ n => n⟩ 0 3 (by norm_num [s]) rfl rfl
    (by norm_num [s]) (fun p h => (hp p h).1) ⟨⟨0, 1, 0⟩, by simp [s], by norm_num⟩ (by simp [s]) fun p h => (hp p h).2
  exact ⟨s, _, y, z, c, h1, h2, h3, h4⟩

/-- C130: the energy of propagated signals is proportional to the gain of the channel (`C130_gain`), the expected energy
reported does not depend on it. -/
theorem C130_energy_fails (s : Sample) (g : ℝ) : { s with gain := g }.energy = s.energy := rfl

/-- C130: the expected energy of two paths of equal gains arriving at different times is four times that of one of them,
instead of twice. -/
theorem C130_coherent_fails (s : Sample) (p q : Path) (h : s.paths = [p, q]) (ha : p.a = q.a) :
    s.energy ^ 2 = 4 * ‖p.a‖ ^ 2 := by
  unfold Sample.energy
  rw [h]
  simp only [List.map_cons, List.map_nil, List.sum_cons, List.sum_nil, add_zero]
  rw [← ha, ← two_mul, norm_mul]
  norm_num
  ring

/-- C130: paths found, none of them valid: channels sampled at two samples per second and more can neither be
propagated over nor report their state. -/
theorem C130_padding_fails (s : Sample) (x : Sig ℂ) (taps num : Nat) (hne : s.paths ≠ [])
    (hp : ∀ p ∈ s.paths, p.tau = -1) (hb : (2 : ℝ) ≤ s.bw) (hl : (x.len : ℝ) + 1 ≤ s.bw) :
    s.state num taps = .error .value ∧ s.block x = .error .value := by
  have hmax : maxTau s.paths = -1 := by
    obtain ⟨p, h, e⟩ := maxTau_mem s.paths hne
    rw [e, hp p h]
  have hc : ∀ n : ℕ, (n : ℝ) ≤ s.bw → s.maxSteps ≤ -(n : ℤ) := by
    intro n hn
    unfold Sample.maxSteps
    rw [hmax]
    refine Int.ceil_le.mpr ?_
    push_cast
    linarith
  have h2 := hc 2 (by exact_mod_cast hb)
  have h3 := hc (x.len + 1) (by push_cast; exact hl)
  constructor
  · unfold Sample.state
    dsimp only
    rw [if_pos (by push_cast at h2; omega)]
  · unfold Sample.block
    rw [if_neg hne]
    dsimp only
    rw [if_pos (by push_cast at h3; omega)]

example : ∃ s : Sample, s.paths ≠ [] ∧ (∀ p ∈ s.paths, p.tau = -1) ∧ (2 : ℝ) ≤ s.bw :=
  ⟨⟨[⟨-1, 0, 0⟩], 1, 100, 1, 1, 100, 100⟩, by simp, by simp, by norm_num⟩

/-- C130: padded paths change nothing else. -/
theorem C130_padding_partial (s : Sample) (x : Sig ℂ) (taps : Nat) (ps : List Path) (p : Path) (qs : List Path)
    (hp : p.tau = -1) (hs : ps ++ qs ≠ []) (h0 : ∃ q ∈ ps ++ qs, 0 ≤ q.tau) :
    maxTau (ps ++ p :: qs) = maxTau (ps ++ qs) ∧
    (∀ h, stateLoop s taps (ps ++ p :: qs) h = stateLoop s taps (ps ++ qs) h) ∧
    (∀ y, propagateLoop s x (ps ++ p :: qs) y = propagateLoop s x (ps ++ qs) y) := by
  refine ⟨?_, ?_, ?_⟩
  · obtain ⟨q, hq, hq0⟩ := h0
    have h1 : ∀ z, z ∈ ps ++ p :: qs → z.tau ≤ maxTau (ps ++ qs) := by
      intro z hz
      simp only [List.mem_append, List.mem_cons] at hz
      have hpz : p.tau ≤ maxTau (ps ++ qs) := by
        have := le_maxTau _ q hq
        rw [hp]; linarith
      rcases hz with h | rfl | h
      · exact le_maxTau _ z (List.mem_append_left _ h)
      · exact hpz
      · exact le_maxTau _ z (List.mem_append_right _ h)
    apply le_antisymm
    · obtain ⟨z, hz, e⟩ := maxTau_mem (ps ++ p :: qs) (by simp)
      rw [e]; exact h1 z hz
    · obtain ⟨z, hz, e⟩ := maxTau_mem (ps ++ qs) hs
      rw [e]
      refine le_maxTau _ z ?_
      simp only [List.mem_append, List.mem_cons] at hz ⊢
      tauto
  · induction ps with
    | nil =>
      intro h
      rw [List.nil_append, List.nil_append]
      conv_lhs => unfold stateLoop
      rw [if_pos (by rw [hp]; norm_num)]
    | cons z ps ih =>
      intro h
      funext n k
      rw [stateLoop_eq, stateLoop_eq]
      simp [hp, show ¬ (0 : ℝ) ≤ -1 by norm_num]
  · intro y
    clear hs h0
    induction ps generalizing y with
    | nil =>
      rw [List.nil_append, List.nil_append]
      conv_lhs => unfold propagateLoop
      rw [if_pos hp]
    | cons z ps ih =>
      rw [List.cons_append, List.cons_append]
      unfold propagateLoop
      rw [ih, ih]

/-- C130: receivers sampling at another rate get blocks at scaled offsets, the samples of which are as dense as before: a
block following directly after another one of `n` samples is put at half of it. -/
theorem C130_rate_fails (s : Sample) (x : Sig ℂ) (n : Nat) (hx : x.streams = s.tx) (h0 : s.rateTx ≠ 0)
    (hr : s.rateRx = s.rateTx / 2) (hsum : (s.paths.map Path.a).sum ≠ 0) (y : Sig ℂ) (hy : s.block x = .ok y) :
    s.propagate x (2 * n) = .ok (y, n) := by
  unfold Sample.propagate
  have hen : ¬ s.energy ≤ 0 := by
    unfold Sample.energy
    exact not_le.mpr (norm_pos_iff.mpr hsum)
  rw [if_neg hen, if_neg (by simpa using hx), hy]
  have : s.scaled (2 * n) = n := by
    unfold Sample.scaled
    rw [hr]
    have : ((2 * n : ℕ) : ℝ) * (s.rateTx / 2 / s.rateTx) = (n : ℕ) := by
      push_cast
      field_simp
    rw [this]
    simp
  rw [this]
  rfl

/-! ## Sampling -/

/-- C130: no path of a sample is shifted in frequency, its gain is the same at every time. -/
theorem C130_static (tr : Tracer) (gain : ℝ) (l : Link) (p : Path) (hp : p ∈ (sample tr gain l).paths) (n : Nat) :
    (sample tr gain l).coef p n = p.a := by
  unfold Sample.coef
  rw [tr.still _ _ _ p hp]
  simp

/-- C130: paths between moving devices are Doppler shifted, for instance by the radial velocity, those of samples
are not. -/
theorem C130_motion_fails : ∃ (tr : Tracer) (l : Link),
    (∃ p ∈ tr.solve l.tx.pos l.rx.pos l.tx.vel l.rx.vel l.tx.carrier, p.nu ≠ 0) ∧
    ∀ p ∈ (sample tr 1 l).paths, p.nu = 0 := by
  refine ⟨⟨fun _ _ v w f => [⟨0, 1, (v 0 - w 0) * f / 299792458⟩], by simp⟩,
    ⟨⟨0, fun _ => 1, 1, 1, [0], [0]⟩, ⟨0, 0, 1, 1, [0], [0]⟩, 1, 1⟩, ?_, ?_⟩
  · exact ⟨_, List.mem_singleton_self _, by norm_num⟩
  · intro p hp
    simp [sample] at hp
    rw [hp]

/-- C130: whatever is received has a stream for every receiving antenna of the receiver, and signals with another number of
streams than the transmitter has transmitting antennas are refused, unless the paths cancel each other. -/
theorem C130_streams_partial (tr : Tracer) (gain : ℝ) (l : Link) (x : Sig ℂ) (offset : Nat) :
    (∀ y o, (sample tr gain l).propagate x offset = .ok (y, o) → y.streams = l.rx.rxAnt.length) ∧
    (x.streams ≠ l.tx.txAnt.length → (((sample tr gain l).paths.map Path.a).sum ≠ 0) →
      (sample tr gain l).propagate x offset = .error .value) := by
  constructor
  · intro y o h
    unfold Sample.propagate at h
    split at h
    · simp only [Except.ok.injEq, Prod.mk.injEq] at h
      rw [← h.1]; rfl
    · split at h
      · simp at h
      · unfold Sample.block at h
        dsimp only at h
        split at h
        · simp only [Except.map, Except.ok.injEq, Prod.mk.injEq] at h
          rw [← h.1]; rfl
        · split at h
          · simp [Except.map] at h
          · simp only [Except.map, Except.ok.injEq, Prod.mk.injEq] at h
            rw [← h.1]; rfl
  · intro hx hs
    unfold Sample.propagate
    rw [if_neg (by unfold Sample.energy; push Not; exact norm_pos_iff.mpr hs), if_pos (by exact hx)]

/-- C130: antennas at other places of the device change nothing. -/
theorem C130_places_fails (tr : Tracer) (gain : ℝ) (l : Link) (a b : List Vec) (ha : a.length = l.tx.txAnt.length)
    (hb : b.length = l.rx.rxAnt.length) :
    sample tr gain { l with tx := { l.tx with txAnt := a }, rx := { l.rx with rxAnt := b } } = sample tr gain l := by
  unfold sample
  simp [ha, hb]

/-- A scene without any object: free space with the transmission loss of Friis. -/
noncomputable def freeSpace : Tracer where
  solve := fun p q _ _ f => [⟨‖p - q‖ / 299792458, 299792458 / (4 * Real.pi * f * ‖p - q‖), 0⟩]
  still := by intro p q f x hx; simp at hx; rw [hx]

/-- C130: the frequency requested for a sample is not the frequency paths are traced at: devices a metre apart, the
transmitter of which has a carrier frequency of one gigahertz, have the losses of that frequency although their channel is
sampled at two. -/
theorem C130_frequency_fails : ∃ l : Link,
    (sample freeSpace 1 l).paths.map Path.a ≠
      (freeSpace.solve l.tx.pos l.rx.pos l.tx.vel l.rx.vel l.carrier).map Path.a := by
  refine ⟨⟨⟨fun _ => 1, 0, 1e9, 1, [0], [0]⟩, ⟨fun _ => 0, 0, 1e9, 1, [0], [0]⟩, 2e9, 1⟩, ?_⟩
  have h : ‖(fun _ => (1 : ℝ) : Vec) - (fun _ => 0 : Vec)‖ = 1 := by
    have : (fun _ => (1 : ℝ) : Vec) - (fun _ => 0 : Vec) = fun _ => 1 := by funext i; simp
    rw [this, pi_norm_const]; simp
  simp only [sample, freeSpace, List.map_cons, List.map_nil, h, ne_eq, List.cons.injEq, and_true]
  have hpi : (Real.pi : ℂ) ≠ 0 := by exact_mod_cast Real.pi_ne_zero
  intro h
  field_simp at h
  norm_num at h

/-- C130: in a scene in which paths can be travelled both ways, devices of the same carrier frequency have reciprocal
channels: both directions have the same paths.  Missing: devices of different carrier frequencies, for which the paths of
each direction are traced at the frequency of the sender. -/
theorem C130_reciprocal_partial (tr : Tracer) (gain : ℝ) (l : Link) (hc : l.tx.carrier = l.rx.carrier)
    (hr : ∀ p q v w f, List.Perm (tr.solve p q v w f) (tr.solve q p w v f)) :
    let s := sample tr gain l
    let r := reciprocal tr gain s ⟨l.rx, l.tx, l.carrier, l.bw⟩
    List.Perm s.paths r.paths ∧ s.gain = r.gain ∧ s.bw = r.bw ∧ s.energy = r.energy ∧
      ∀ taps n k, stateLoop s taps s.paths (fun _ _ => 0) n k = stateLoop r taps r.paths (fun _ _ => 0) n k := by
  dsimp only
  have hperm : List.Perm (sample tr gain l).paths
      (reciprocal tr gain (sample tr gain l) ⟨l.rx, l.tx, l.carrier, l.bw⟩).paths := by
    unfold reciprocal sample
    dsimp only
    rw [hc]
    exact hr _ _ _ _ _
  refine ⟨hperm, rfl, rfl, ?_, fun taps n k => ?_⟩
  · unfold Sample.energy
    rw [(hperm.map Path.a).sum_eq]
  · rw [stateLoop_eq, stateLoop_eq]
    congr 1
    exact (hperm.map _).sum_eq

example : ∃ tr : Tracer, (∀ p q v w f, List.Perm (tr.solve p q v w f) (tr.solve q p w v f)) ∧
    tr.solve 0 0 0 0 1 ≠ [] := by
  refine ⟨freeSpace, fun p q v w f => ?_, by simp [freeSpace]⟩
  simp only [freeSpace]
  rw [norm_sub_rev]

/-- C130: the two directions between devices of different carrier frequencies differ, although sampled at the same
frequency. -/
theorem C130_reciprocal_fails : ∃ (tr : Tracer) (l : Link),
    (∀ p q v w f, List.Perm (tr.solve p q v w f) (tr.solve q p w v f)) ∧
    ((sample tr 1 l).paths.map Path.a).sum ≠
      ((reciprocal tr 1 (sample tr 1 l) ⟨l.rx, l.tx, l.carrier, l.bw⟩).paths.map Path.a).sum := by
  refine ⟨⟨fun _ _ _ _ f => [⟨0, f, 0⟩], by simp⟩, ⟨⟨0, 0, 1, 1, [0], [0]⟩, ⟨0, 0, 2, 1, [0], [0]⟩, 1, 1⟩, ?_, ?_⟩
  · intro p q v w f
    exact List.Perm.refl _
  · simp [reciprocal, sample]

end Verif.RayTraced
