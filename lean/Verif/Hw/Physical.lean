import Verif.Np
import Mathlib.Analysis.Complex.Basic
import Mathlib.Analysis.Complex.Norm
import Mathlib.Algebra.Order.BigOperators.Group.List
import Mathlib.Tactic.NormNum
import Mathlib.Tactic.Linarith
import Mathlib.Tactic.FieldSimp

/-!
# Physical devices (C111)

Model of `PhysicalDevice` (`hermespy/hardware_loop/physical_device.py` 63-683), of the scalar antenna
calibration's corrections (`hardware_loop/calibration/antennas.py`), of `PhysicalDeviceDummy`
(`hardware_loop/physical_device_dummy.py`) and of the number checks of `PhysicalScenario` (`hardware_loop/scenario.py`).
A device is a state machine over the hardware it controls: the hardware's memory, trigger and leakage are
arbitrary functions, the caller's signals live in a memory addressed by references since antenna calibrations
work in place.  Sampling rates and frequencies are rationals, samples complex numbers.  Not modelled: the
operators of the device (C34), codings (C37), plots, files of calibrations.
-/

namespace Verif.HwDevice

/-- A dense signal, `core/signal_model.py` 1187-1227: sampling rate, carrier frequency and the samples of its streams. -/
structure Sig where
  rate : ℚ
  carrier : ℚ
  streams : List (List ℂ)

/-- What a device consists of besides its state: `fs` is `Device.sampling_rate`, `carrier` is `Device.carrier_frequency`,
`tx` and `rx` are `num_transmit_rf_ports` and `num_receive_rf_ports`; `upload` is `PhysicalDevice._upload`, the state of the
hardware and the signal actually uploaded; `trigger` is `PhysicalDevice.trigger`; `download` is `PhysicalDevice._download`
(`physical_device.py` 157-160, 431-443 and 477-487); `remove` is `remove_leakage` of the leakage calibration
(`physical_device.py` 942-952); `weights` are the transmit weights of a scalar antenna calibration, `none` for
`NoAntennaCalibration`; `lowpass c` is scipy's `sosfilt` with the Butterworth filter of cutoff `c`; `resample` and `add` are
`Signal.resample` and the addition of `Signal.superimpose` at equal sampling rates. -/
structure Env (H : Type) where
  fs : ℚ
  carrier : ℚ
  tx : ℕ
  rx : ℕ
  upload : H → Sig → H × Sig
  trigger : H → H
  download : H → Sig
  remove : Sig → Sig → Except PyErr Sig
  weights : Option (List ℂ)
  lowpass : ℚ → Sig → Sig
  resample : ℚ → Sig → Sig
  add : Sig → Sig → Sig

/-- The settings of a device, `physical_device.py` 66-77. -/
structure Settings where
  maxDelay : ℚ
  noisePower : Option (List ℝ)
  adaptive : Bool
  lowpassFilter : Bool
  lowpassBandwidth : ℚ

/-- The state of a device, `physical_device.py` 69-77: its settings, the most recent upload, the state of its hardware and the
memory of the caller's signals. -/
structure State (H : Type) where
  set : Settings
  recent : Option Sig
  hw : H
  memory : ℕ → Sig

/-- The setters of `max_receive_delay` (`physical_device.py` 350-355) and `lowpass_bandwidth` (326-331). -/
def nonneg (x : ℚ) : Except PyErr ℚ := if x < 0 then .error .value else .ok x

open Classical in
/-- The setter of `noise_power`, `physical_device.py` 387-396. -/
noncomputable def noisePowers : Option (List ℝ) → Except PyErr (Option (List ℝ))
  | none => .ok none
  | some v => if ∃ x ∈ v, x < 0 then .error .value else .ok (some v)

/-- `PhysicalDevice.__init__`, `physical_device.py` 142-148: the flags given for adaptive sampling and the lowpass filter are
not used. -/
noncomputable def new (maxDelay : ℚ) (noise : Option (List ℝ)) (_adaptive _lowpassFilter : Bool) (bandwidth : ℚ) :
    Except PyErr Settings := do
  let d ← nonneg maxDelay
  let b ← nonneg bandwidth
  let p ← noisePowers noise
  return ⟨d, p, false, false, b⟩

/-- `PhysicalDevice.serialize` followed by `_DeserializeParameters` and the constructor, `physical_device.py` 644-683. -/
noncomputable def restore (s : Settings) : Except PyErr Settings :=
  new s.maxDelay s.noisePower s.adaptive s.lowpassFilter s.lowpassBandwidth

/-- `ScalarAntennaCalibration.correct_transmission`, `calibration/antennas.py` 72-80 (and of `NoAntennaCalibration`,
`physical_device.py` 1017-1019): the samples written back into the block. -/
noncomputable def correct : Option (List ℂ) → List (List ℂ) → Except PyErr (List (List ℂ))
  | none, x => .ok x
  | some w, x =>
    if x.length ≠ w.length then .error .value else .ok (List.zipWith (fun a r => r.map (a * ·)) w x)

/-- `PhysicalDevice.trigger_direct`, `physical_device.py` 489-546, with the signal given by its reference: the corrected samples
are written into the caller's signal, lines 519-528, since `blocks` refers to the signal's own samples
(`core/signal_model.py` 1302-1305). -/
noncomputable def triggerDirect {H : Type} (e : Env H) (s : State H) (r : ℕ) (calibrate : Bool) :
    State H × Except PyErr Sig :=
  let x := s.memory r
  if x.carrier ≠ e.carrier then (s, .error .value)
  else if x.rate ≠ e.fs then (s, .error .value)
  else
    match (if calibrate then correct e.weights x.streams else .ok x.streams) with
    | .error err => (s, .error err)
    | .ok y =>
      let x' : Sig := ⟨x.rate, x.carrier, y⟩
      let up := e.upload s.hw x'
      let h := e.trigger up.1
      ({ s with hw := h, memory := fun k => if k = r then x' else s.memory k },
        if calibrate then e.remove up.2 (e.download h) else .ok (e.download h))

/-- `Signal.superimpose` onto a signal that is not empty, `core/signal_model.py` 1461-1474, as far as sampling rates go. -/
def mixStep {H : Type} (e : Env H) (resample : Bool) (acc y : Sig) : Except PyErr Sig :=
  if y.rate = acc.rate then .ok (e.add acc y)
  else if resample then .ok (e.add acc (e.resample acc.rate y))
  else .error .runtime

/-- The superposition of the operators' transmissions in `Device.generate_output`, `core/device.py` 1433-1444, with
`Signal.superimpose` (`core/signal_model.py` 1457-1474): the empty signal superimposed first returns the first transmission as
it is. -/
def mix {H : Type} (e : Env H) (resample : Bool) : List Sig → Except PyErr Sig
  | [] => .ok ⟨e.fs, e.carrier, List.replicate e.tx []⟩
  | x :: xs => xs.foldlM (mixStep e resample) x

/-- `PhysicalDevice.transmit`, `physical_device.py` 445-475, with the signals transmitted by the device's operators: the
transmission's mixed signal, and the upload. -/
def transmit {H : Type} (e : Env H) (s : State H) (xs : List Sig) : State H × Except PyErr Sig :=
  if !s.set.adaptive || xs.isEmpty then
    match mix e true xs with
    | .error err => (s, .error err)
    | .ok m =>
      let up := e.upload s.hw m
      ({ s with hw := up.1, recent := some up.2 }, .ok m)
  else
    match mix e false xs with
    | .error err => (s, .error err)
    | .ok m =>
      let m' : Sig := ⟨e.fs, e.carrier, m.streams⟩
      let up := e.upload s.hw m'
      ({ s with hw := up.1, recent := some up.2 }, .ok m')

/-- The cutoff of the lowpass filter, `physical_device.py` 561-565. -/
def cutoff (fs bandwidth : ℚ) : ℚ := if bandwidth ≤ 0 then 1 / 4 * fs else 1 / 2 * bandwidth

/-- The samples `PhysicalDevice.process_input` works with, `physical_device.py` 555-585: without impinging signals the
downloaded ones, filtered; scipy's `butter` raises `ValueError` for cutoffs of at least half the sampling rate. -/
def impinging {H : Type} (e : Env H) (s : State H) : Option Sig → Except PyErr Sig
  | some x => .ok x
  | none =>
    if s.set.lowpassFilter then
      if 1 / 2 * e.fs ≤ cutoff e.fs s.set.lowpassBandwidth then .error .value
      else .ok (e.lowpass (cutoff e.fs s.set.lowpassBandwidth) (e.download s.hw))
    else .ok (e.download s.hw)

/-- `PhysicalDevice.process_input`, `physical_device.py` 548-612: the signal given to the default input processing. -/
def processInput {H : Type} (e : Env H) (s : State H) (x : Option Sig) : Except PyErr Sig := do
  let y ← impinging e s x
  if y.streams.length ≠ e.rx then throw .value
  else if y.rate ≠ e.fs then throw .value
  else e.remove (s.recent.getD ⟨y.rate, y.carrier, List.replicate y.streams.length []⟩) y

/-- `PhysicalDevice.receive`, `physical_device.py` 641-642, and `Device.receive`, `core/device.py` 1631-1634: the downloaded
samples are given to `process_input`. -/
def receive {H : Type} (e : Env H) (s : State H) (x : Option Sig) : Except PyErr Sig :=
  processInput e s (some (x.getD (e.download s.hw)))

/-- The energy of a stream divided by its number of samples, `core/signal_model.py` 486-501. -/
noncomputable def power (x : List ℂ) : ℝ := (x.map fun z => ‖z‖ ^ 2).sum / x.length

/-- A silent signal, `physical_device.py` 418-422. -/
def silent {H : Type} (e : Env H) (n : ℕ) : Sig := ⟨e.fs, e.carrier, List.replicate e.tx (List.replicate n 0)⟩

/-- `PhysicalDevice.estimate_noise_power`, `physical_device.py` 398-429; `r` is the reference of the silent signal. -/
noncomputable def estimateNoise {H : Type} (e : Env H) (s : State H) (r n : ℕ) (cache : Bool) :
    State H × Except PyErr (List ℝ) :=
  let t := triggerDirect e { s with memory := fun k => if k = r then silent e n else s.memory k } r true
  match t.2 with
  | .error err => (t.1, .error err)
  | .ok y =>
    let p := y.streams.map power
    if cache then
      match noisePowers (some p) with
      | .error err => (t.1, .error err)
      | .ok q => ({ t.1 with set := { t.1.set with noisePower := q } }, .ok p)
    else (t.1, .ok p)

/-- The calls a user makes. -/
inductive Op
  | transmit (xs : List Sig)
  | direct (r : ℕ) (calibrate : Bool)
  | trigger
  | noise (r n : ℕ) (cache : Bool)
  | adaptive (b : Bool)
  | lowpassFilter (b : Bool)
  | lowpassBandwidth (x : ℚ)
  | maxDelay (x : ℚ)

/-- One call; calls that raise leave the settings as they are. -/
noncomputable def step {H : Type} (e : Env H) (s : State H) : Op → State H
  | .transmit xs => (transmit e s xs).1
  | .direct r c => (triggerDirect e s r c).1
  | .trigger => { s with hw := e.trigger s.hw }
  | .noise r n c => (estimateNoise e s r n c).1
  | .adaptive b => { s with set := { s.set with adaptive := b } }
  | .lowpassFilter b => { s with set := { s.set with lowpassFilter := b } }
  | .lowpassBandwidth x =>
    match nonneg x with
    | .ok y => { s with set := { s.set with lowpassBandwidth := y } }
    | .error _ => s
  | .maxDelay x =>
    match nonneg x with
    | .ok y => { s with set := { s.set with maxDelay := y } }
    | .error _ => s

/-- A history of calls. -/
noncomputable def run {H : Type} (e : Env H) (s : State H) (ops : List Op) : State H := ops.foldl (step e) s

/-- Settings a device may have: no negative delay, bandwidth or noise power. -/
def Settings.Valid (s : Settings) : Prop :=
  0 ≤ s.maxDelay ∧ 0 ≤ s.lowpassBandwidth ∧ ∀ p, s.noisePower = some p → ∀ x ∈ p, 0 ≤ x

theorem nonneg_ok {x y : ℚ} (h : nonneg x = .ok y) : y = x ∧ 0 ≤ x := by
  unfold nonneg at h
  by_cases hx : x < 0
  · rw [if_pos hx] at h; cases h
  · rw [if_neg hx] at h; cases h; exact ⟨rfl, not_lt.mp hx⟩

theorem noisePowers_ok {v w : Option (List ℝ)} (h : noisePowers v = .ok w) :
    w = v ∧ ∀ p, v = some p → ∀ x ∈ p, 0 ≤ x := by
  cases v with
  | none =>
    have : w = none := by simpa [noisePowers] using h.symm
    exact ⟨this, by simp⟩
  | some p =>
    have h' : (if ∃ x ∈ p, x < 0 then (.error .value : Except PyErr (Option (List ℝ))) else .ok (some p)) = .ok w := by
      have := h
      unfold noisePowers at this
      convert this using 2
    by_cases hx : ∃ x ∈ p, x < 0
    · rw [if_pos hx] at h'; cases h'
    · rw [if_neg hx] at h'; cases h'
      refine ⟨rfl, ?_⟩
      rintro q ⟨⟩ x hq
      by_contra hc
      exact hx ⟨x, hq, not_le.mp hc⟩

theorem power_nonneg (x : List ℂ) : 0 ≤ power x := by
  unfold power
  apply div_nonneg _ (Nat.cast_nonneg _)
  apply List.sum_nonneg
  intro y hy
  rw [List.mem_map] at hy
  obtain ⟨z, _, rfl⟩ := hy
  positivity

theorem noisePowers_some (v : List ℝ) (h : ∀ x ∈ v, 0 ≤ x) : noisePowers (some v) = .ok (some v) := by
  unfold noisePowers
  simp only
  rw [if_neg]
  rintro ⟨x, hx, h'⟩
  exact absurd (h x hx) (not_le.mpr h')

theorem noisePowers_power (y : List (List ℂ)) : noisePowers (some (y.map power)) = .ok (some (y.map power)) := by
  apply noisePowers_some
  intro x hx
  rw [List.mem_map] at hx
  obtain ⟨z, _, rfl⟩ := hx
  exact power_nonneg z

theorem direct_set {H : Type} (e : Env H) (s : State H) (r : ℕ) (c : Bool) :
    (triggerDirect e s r c).1.set = s.set ∧ (triggerDirect e s r c).1.recent = s.recent := by
  unfold triggerDirect
  simp only
  split_ifs <;> first | exact ⟨rfl, rfl⟩ | (split <;> exact ⟨rfl, rfl⟩)

theorem noise_recent {H : Type} (e : Env H) (s : State H) (r n : ℕ) (c : Bool) :
    (estimateNoise e s r n c).1.recent = s.recent := by
  unfold estimateNoise
  simp only
  split
  · exact (direct_set e _ r true).2
  · split_ifs
    · split <;> exact (direct_set e _ r true).2
    · exact (direct_set e _ r true).2

theorem transmit_set {H : Type} (e : Env H) (s : State H) (xs : List Sig) : (transmit e s xs).1.set = s.set := by
  unfold transmit
  split_ifs <;> split <;> rfl

theorem step_valid {H : Type} (e : Env H) (s : State H) (op : Op) (hs : s.set.Valid) : (step e s op).set.Valid := by
  cases op with
  | transmit xs => show (transmit e s xs).1.set.Valid; rw [transmit_set]; exact hs
  | direct r c => show (triggerDirect e s r c).1.set.Valid; rw [(direct_set e s r c).1]; exact hs
  | trigger => exact hs
  | adaptive b => exact hs
  | lowpassFilter b => exact hs
  | lowpassBandwidth x =>
    show State.set _ |>.Valid
    unfold step
    simp only
    split
    · rename_i y hy
      exact ⟨hs.1, (nonneg_ok hy).1 ▸ (nonneg_ok hy).2, hs.2.2⟩
    · exact hs
  | maxDelay x =>
    show State.set _ |>.Valid
    unfold step
    simp only
    split
    · rename_i y hy
      exact ⟨(nonneg_ok hy).1 ▸ (nonneg_ok hy).2, hs.2⟩
    · exact hs
  | noise r n c =>
    show (estimateNoise e s r n c).1.set.Valid
    unfold estimateNoise
    simp only
    split
    · rw [(direct_set e _ r true).1]; exact hs
    · split_ifs
      · rw [noisePowers_power]
        refine ⟨?_, ?_, ?_⟩
        · show 0 ≤ (triggerDirect e _ r true).1.set.maxDelay
          rw [(direct_set e _ r true).1]; exact hs.1
        · show 0 ≤ (triggerDirect e _ r true).1.set.lowpassBandwidth
          rw [(direct_set e _ r true).1]; exact hs.2.1
        · rintro p hp x hx
          have hp' : _ = p := Option.some.inj hp
          rw [← hp', List.mem_map] at hx
          obtain ⟨z, _, rfl⟩ := hx
          exact power_nonneg z
      · rw [(direct_set e _ r true).1]; exact hs

/-- **C111.** Whatever is called, and whatever raises, a device that was created has no negative delay, bandwidth or noise
power; creating one with such values raises `ValueError`, as does setting them, which changes nothing. -/
theorem C111_settings {H : Type} (e : Env H) (s : State H) (d : ℚ) (p : Option (List ℝ)) (a l : Bool) (b : ℚ)
    (hs : new d p a l b = .ok s.set) (ops : List Op) :
    0 ≤ d ∧ 0 ≤ b ∧ (run e s ops).set.Valid ∧
      ∀ x : ℚ, x < 0 → step e (run e s ops) (.maxDelay x) = run e s ops ∧
        step e (run e s ops) (.lowpassBandwidth x) = run e s ops := by
  have hv : 0 ≤ d ∧ 0 ≤ b ∧ s.set.Valid := by
    unfold new at hs
    cases hd : nonneg d with
    | error err => rw [hd] at hs; cases hs
    | ok d' =>
      cases hb : nonneg b with
      | error err => rw [hd, hb] at hs; cases hs
      | ok b' =>
        cases hp : noisePowers p with
        | error err => rw [hd, hb, hp] at hs; cases hs
        | ok p' =>
          rw [hd, hb, hp] at hs
          have hs' : (⟨d', p', false, false, b'⟩ : Settings) = s.set := by
            have := hs
            simpa [bind, Except.bind, pure, Except.pure] using this
          rw [← hs']
          obtain ⟨rfl, h1⟩ := nonneg_ok hd
          obtain ⟨rfl, h2⟩ := nonneg_ok hb
          obtain ⟨rfl, h3⟩ := noisePowers_ok hp
          exact ⟨h1, h2, h1, h2, h3⟩
  refine ⟨hv.1, hv.2.1, ?_, ?_⟩
  · unfold run
    have : ∀ (ops : List Op) (s : State H), s.set.Valid → (ops.foldl (step e) s).set.Valid := by
      intro ops
      induction ops with
      | nil => intro s h; exact h
      | cons op ops ih => intro s h; exact ih _ (step_valid e s op h)
    exact this ops s hv.2.2
  · intro x hx
    have : nonneg x = .error .value := by unfold nonneg; rw [if_pos hx]
    constructor <;> (unfold step; simp only [this])

example : new 1 (some [0, 2]) true true 3 = .ok ⟨1, some [0, 2], false, false, 3⟩ := by
  have : noisePowers (some [0, 2]) = .ok (some [0, 2]) := by
    apply noisePowers_some
    intro x hx
    simp only [List.mem_cons, List.not_mem_nil, or_false] at hx
    rcases hx with rfl | rfl <;> norm_num
  unfold new
  rw [this, show nonneg 1 = .ok 1 from rfl, show nonneg 3 = .ok 3 from rfl]
  rfl

/-- **C111, storage.** A restored device has the delay, the noise power and the bandwidth of the stored one. -/
theorem C111_restore_partial (s : Settings) (hs : s.Valid) :
    ∃ t, restore s = .ok t ∧ t.maxDelay = s.maxDelay ∧ t.noisePower = s.noisePower ∧
      t.lowpassBandwidth = s.lowpassBandwidth := by
  obtain ⟨h1, h2, h3⟩ := hs
  have e1 : nonneg s.maxDelay = .ok s.maxDelay := by unfold nonneg; rw [if_neg (not_lt.mpr h1)]
  have e2 : nonneg s.lowpassBandwidth = .ok s.lowpassBandwidth := by unfold nonneg; rw [if_neg (not_lt.mpr h2)]
  have e3 : noisePowers s.noisePower = .ok s.noisePower := by
    cases hp : s.noisePower with
    | none => rfl
    | some p =>
      exact noisePowers_some p (h3 p hp)
  refine ⟨⟨s.maxDelay, s.noisePower, false, false, s.lowpassBandwidth⟩, ?_, rfl, rfl, rfl⟩
  unfold restore new
  rw [e1, e2, e3]
  rfl

/-- **C111, false part.** Devices created with adaptive sampling or the lowpass filter enabled have them disabled, and devices
on which they were enabled are restored with them disabled. -/
theorem C111_flags_fails :
    (∀ d p a l b t, new d p a l b = .ok t → t.adaptive = false ∧ t.lowpassFilter = false) ∧
      ∃ s : Settings, s.Valid ∧ s.adaptive = true ∧ s.lowpassFilter = true ∧ restore s ≠ .ok s := by
  have key : ∀ d p a l b t, new d p a l b = .ok t → t.adaptive = false ∧ t.lowpassFilter = false := by
    intro d p a l b t h
    unfold new at h
    cases hd : nonneg d with
    | error err => rw [hd] at h; cases h
    | ok d' =>
      cases hb : nonneg b with
      | error err => rw [hd, hb] at h; cases h
      | ok b' =>
        cases hp : noisePowers p with
        | error err => rw [hd, hb, hp] at h; cases h
        | ok p' =>
          rw [hd, hb, hp] at h
          have h' : (⟨d', p', false, false, b'⟩ : Settings) = t := by
            simpa [bind, Except.bind, pure, Except.pure] using h
          rw [← h']; exact ⟨rfl, rfl⟩
  refine ⟨key, ⟨0, none, true, true, 0⟩, ⟨le_refl _, le_refl _, by simp⟩, rfl, rfl, ?_⟩
  intro h
  exact absurd (key _ _ _ _ _ _ h).1 (by simp)

/-! ## Direct transmissions -/

/-- **C111, mismatches.** Signals with another carrier frequency or sampling rate than the device raise `ValueError`, and nothing
is uploaded or triggered. -/
theorem C111_direct_mismatch {H : Type} (e : Env H) (s : State H) (r : ℕ) (c : Bool)
    (h : (s.memory r).carrier ≠ e.carrier ∨ (s.memory r).rate ≠ e.fs) :
    triggerDirect e s r c = (s, .error .value) := by
  unfold triggerDirect
  simp only
  by_cases h1 : (s.memory r).carrier = e.carrier
  · rw [if_neg (not_not.mpr h1), if_pos (h.resolve_left (not_not.mpr h1))]
  · rw [if_pos h1]

/-- **C111, direct transmissions.** Without an antenna calibration, or when told not to calibrate, exactly the given signal is
uploaded and the caller's signals are not changed; the samples downloaded after the trigger are returned, with the leakage of
the uploaded signal removed exactly if told to calibrate. -/
theorem C111_direct_partial {H : Type} (e : Env H) (s : State H) (r : ℕ) (c : Bool)
    (h1 : (s.memory r).carrier = e.carrier) (h2 : (s.memory r).rate = e.fs) (h3 : c = false ∨ e.weights = none) :
    (triggerDirect e s r c).1.memory = s.memory ∧
      (triggerDirect e s r c).1.hw = e.trigger (e.upload s.hw (s.memory r)).1 ∧
      (triggerDirect e s r c).2 =
        if c then e.remove (e.upload s.hw (s.memory r)).2 (e.download (e.trigger (e.upload s.hw (s.memory r)).1))
        else .ok (e.download (e.trigger (e.upload s.hw (s.memory r)).1)) := by
  have e0 : (if c then correct e.weights (s.memory r).streams else .ok (s.memory r).streams) =
      .ok (s.memory r).streams := by
    rcases h3 with rfl | h3
    · rfl
    · rw [h3]; cases c <;> rfl
  have e1 : (⟨(s.memory r).rate, (s.memory r).carrier, (s.memory r).streams⟩ : Sig) = s.memory r := rfl
  unfold triggerDirect
  simp only
  rw [if_neg (not_not.mpr h1), if_neg (not_not.mpr h2)]
  rw [e0]
  refine ⟨?_, rfl, rfl⟩
  funext k
  by_cases hk : k = r
  · simp only [hk, if_true]
  · simp only [hk, if_false]

/-- Every stream scaled by its weight. -/
noncomputable def scale (w : List ℂ) (x : List (List ℂ)) : List (List ℂ) :=
  List.zipWith (fun a r => r.map (a * ·)) w x

theorem scale_length (w : List ℂ) (x : List (List ℂ)) (h : x.length = w.length) : (scale w x).length = w.length := by
  unfold scale; rw [List.length_zipWith, h, min_self]

theorem scale_pow (w : List ℂ) (n : ℕ) (x : List (List ℂ)) :
    scale w (scale (w.map (· ^ n)) x) = scale (w.map (· ^ (n + 1))) x := by
  unfold scale
  induction w generalizing x with
  | nil => rfl
  | cons a w ih =>
    cases x with
    | nil => rfl
    | cons y x =>
      simp only [List.map_cons, List.zipWith_cons_cons]
      rw [ih]
      congr 1
      rw [List.map_map]
      apply List.map_congr_left
      intro z _
      simp only [Function.comp]
      ring

theorem scale_one (w : List ℂ) (x : List (List ℂ)) (h : x.length = w.length) : scale (w.map (· ^ 0)) x = x := by
  unfold scale
  induction w generalizing x with
  | nil =>
    have : x = [] := List.length_eq_zero_iff.mp h
    rw [this]; rfl
  | cons a w ih =>
    cases x with
    | nil => cases h
    | cons y x =>
      simp only [List.map_cons, List.zipWith_cons_cons]
      rw [ih x (by simpa using h)]
      congr 1
      simp

theorem direct_weights {H : Type} (e : Env H) (s : State H) (r : ℕ) (w : List ℂ) (hw : e.weights = some w)
    (h1 : (s.memory r).carrier = e.carrier) (h2 : (s.memory r).rate = e.fs)
    (h3 : (s.memory r).streams.length = w.length) :
    (triggerDirect e s r true).1.memory r = ⟨e.fs, e.carrier, scale w (s.memory r).streams⟩ ∧
      (triggerDirect e s r true).1.hw =
        e.trigger (e.upload s.hw ⟨e.fs, e.carrier, scale w (s.memory r).streams⟩).1 := by
  have e0 : (if true then correct e.weights (s.memory r).streams else .ok (s.memory r).streams) =
      .ok (scale w (s.memory r).streams) := by
    rw [if_pos rfl, hw]
    unfold correct
    simp only
    rw [if_neg (not_not.mpr h3)]
    rfl
  unfold triggerDirect
  simp -failIfUnchanged only
  rw [if_neg (not_not.mpr h1), if_neg (not_not.mpr h2)]
  rw [if_pos rfl] at e0
  simp only [if_true]
  rw [e0]
  simp only [if_true]
  rw [h1, h2]
  exact ⟨rfl, rfl⟩

/-- **C111, false part.** Antenna calibrations are applied in place: triggering the same signal `n + 1` times transmits it with
the weights raised to the power `n + 1`, and leaves it so. -/
theorem C111_repeat_fails {H : Type} (e : Env H) (s : State H) (r n : ℕ) (w : List ℂ) (hw : e.weights = some w)
    (h1 : (s.memory r).carrier = e.carrier) (h2 : (s.memory r).rate = e.fs)
    (h3 : (s.memory r).streams.length = w.length) :
    (run e s (List.replicate (n + 1) (.direct r true))).memory r =
        ⟨e.fs, e.carrier, scale (w.map (· ^ (n + 1))) (s.memory r).streams⟩ ∧
      (run e s (List.replicate (n + 1) (.direct r true))).hw =
        e.trigger (e.upload (run e s (List.replicate n (.direct r true))).hw
          ⟨e.fs, e.carrier, scale (w.map (· ^ (n + 1))) (s.memory r).streams⟩).1 := by
  have key : ∀ n, (run e s (List.replicate n (.direct r true))).memory r =
      ⟨e.fs, e.carrier, scale (w.map (· ^ n)) (s.memory r).streams⟩ := by
    intro n
    induction n with
    | zero =>
      show s.memory r = _
      rw [scale_one w _ h3, ← h1, ← h2]
    | succ n ih =>
      have hs : run e s (List.replicate (n + 1) (.direct r true)) =
          (triggerDirect e (run e s (List.replicate n (.direct r true))) r true).1 := by
        unfold run
        rw [List.replicate_succ', List.foldl_append]
        rfl
      rw [hs, (direct_weights e _ r w hw (by rw [ih]) (by rw [ih])
        (by rw [ih]; show (scale _ _).length = _; rw [scale_length _ _ (by simpa using h3)]; simp)).1, ih, scale_pow]
  refine ⟨key _, ?_⟩
  have hs : run e s (List.replicate (n + 1) (.direct r true)) =
      (triggerDirect e (run e s (List.replicate n (.direct r true))) r true).1 := by
    unfold run
    rw [List.replicate_succ', List.foldl_append]
    rfl
  have ih := key n
  rw [hs, (direct_weights e _ r w hw (by rw [ih]) (by rw [ih])
    (by rw [ih]; show (scale _ _).length = _; rw [scale_length _ _ (by simpa using h3)]; simp)).2, ih, scale_pow]

/-! ## Transmissions and receptions -/

/-- Calls that upload nothing, apart from settings. -/
def Quiet : Op → Prop
  | .transmit _ => False
  | .direct _ _ => False
  | .noise _ _ _ => False
  | _ => True

theorem quiet_recent {H : Type} (e : Env H) (s : State H) (op : Op) (h : Quiet op) : (step e s op).recent = s.recent := by
  cases op with
  | transmit xs => exact absurd h id
  | direct r c => exact absurd h id
  | noise r n c => exact absurd h id
  | trigger => rfl
  | adaptive b => rfl
  | lowpassFilter b => rfl
  | lowpassBandwidth x => unfold step; simp only; split <;> rfl
  | maxDelay x => unfold step; simp only; split <;> rfl

theorem run_append {H : Type} (e : Env H) (s : State H) (a b : List Op) : run e s (a ++ b) = run e (run e s a) b := by
  unfold run; rw [List.foldl_append]

theorem run_recent {H : Type} (e : Env H) (s : State H) (ops : List Op) (h : ∀ op ∈ ops, ∀ xs, op ≠ .transmit xs) :
    (run e s ops).recent = s.recent := by
  induction ops generalizing s with
  | nil => rfl
  | cons op ops ih =>
    show (run e (step e s op) ops).recent = _
    rw [ih _ (fun o ho => h o (List.mem_cons_of_mem _ ho))]
    cases op with
    | transmit xs => exact absurd rfl (h _ List.mem_cons_self xs)
    | direct r c => exact (direct_set e s r c).2
    | noise r n c => exact noise_recent e s r n c
    | trigger => rfl
    | adaptive b => rfl
    | lowpassFilter b => rfl
    | lowpassBandwidth x => unfold step; simp only; split <;> rfl
    | maxDelay x => unfold step; simp only; split <;> rfl

/-- The signal `transmit` uploads to the hardware. -/
def uploaded {H : Type} (e : Env H) (s : State H) (xs : List Sig) : Sig :=
  match (transmit e s xs).2 with
  | .ok m => (e.upload s.hw m).2
  | .error _ => ⟨0, 0, []⟩

/-- **C111, receptions.** Whatever was called before, after a transmission and calls that upload nothing, the leakage of exactly
the uploaded signal is removed from received samples with the device's number of streams and sampling rate, and samples of
another shape raise `ValueError`. -/
theorem C111_leakage_partial {H : Type} (e : Env H) (s : State H) (before after : List Op) (xs : List Sig) (m x : Sig)
    (hm : (transmit e (run e s before) xs).2 = .ok m) (ha : ∀ op ∈ after, Quiet op) :
    receive e (run e s (before ++ [.transmit xs] ++ after)) (some x) =
      if x.streams.length = e.rx ∧ x.rate = e.fs then e.remove (uploaded e (run e s before) xs) x else .error .value := by
  have hr : (run e s (before ++ [.transmit xs] ++ after)).recent = some (uploaded e (run e s before) xs) := by
    rw [run_append, run_recent e _ after (fun op ho xs h => by have := ha op ho; rw [h] at this; exact this), run_append]
    show (transmit e (run e s before) xs).1.recent = _
    unfold uploaded
    rw [hm]
    unfold transmit at hm ⊢
    split_ifs at hm ⊢
    · cases hx : mix e true xs with
      | error err => rw [hx] at hm; cases hm
      | ok y => rw [hx] at hm; simp only at hm ⊢; cases hm; rfl
    · cases hx : mix e false xs with
      | error err => rw [hx] at hm; cases hm
      | ok y => rw [hx] at hm; simp only at hm ⊢; cases hm; rfl
  unfold receive processInput
  rw [hr]
  show (if x.streams.length ≠ e.rx then .error .value else if x.rate ≠ e.fs then .error .value else
    e.remove (uploaded e (run e s before) xs) x) = _
  by_cases h1 : x.streams.length = e.rx
  · by_cases h2 : x.rate = e.fs
    · rw [if_neg (not_not.mpr h1), if_neg (not_not.mpr h2), if_pos ⟨h1, h2⟩]
    · rw [if_neg (not_not.mpr h1), if_pos h2, if_neg (fun h => h2 h.2)]
  · rw [if_pos h1, if_neg (fun h => h1 h.1)]

/-- **C111, false part.** Direct transmissions and noise estimates replace what is in the hardware, but receptions go on having
the leakage of the last ordinary transmission removed, or of none. -/
theorem C111_leakage_fails {H : Type} (e : Env H) (s : State H) (after : List Op)
    (ha : ∀ op ∈ after, ∀ xs, op ≠ .transmit xs) (x : Sig) :
    receive e (run e s after) (some x) = receive e s (some x) := by
  unfold receive processInput
  rw [run_recent e s after ha]
  rfl

/-- **C111, lowpass.** With the lowpass filter enabled, processing downloaded samples filters them with a cutoff of half the
configured bandwidth, and of a quarter of the sampling rate if no bandwidth is configured; bandwidths of the sampling rate or
more raise `ValueError`.  Signals given by the caller are not filtered. -/
theorem C111_lowpass_partial {H : Type} (e : Env H) (s : State H) (hfs : 0 < e.fs)
    (hl : s.set.lowpassFilter = true) :
    (s.set.lowpassBandwidth = 0 → impinging e s none = .ok (e.lowpass (e.fs / 4) (e.download s.hw))) ∧
      (0 < s.set.lowpassBandwidth → s.set.lowpassBandwidth < e.fs →
        impinging e s none = .ok (e.lowpass (s.set.lowpassBandwidth / 2) (e.download s.hw))) ∧
      (e.fs ≤ s.set.lowpassBandwidth → processInput e s none = .error .value) ∧
      ∀ x, impinging e s (some x) = .ok x := by
  have hi : impinging e s none = if 1 / 2 * e.fs ≤ cutoff e.fs s.set.lowpassBandwidth then .error .value
      else .ok (e.lowpass (cutoff e.fs s.set.lowpassBandwidth) (e.download s.hw)) := if_pos hl
  refine ⟨?_, ?_, ?_, fun x => rfl⟩
  · intro h
    have : cutoff e.fs s.set.lowpassBandwidth = e.fs / 4 := by
      unfold cutoff; rw [h, if_pos (le_refl _)]; ring
    rw [hi, this, if_neg (by linarith)]
  · intro h h'
    have : cutoff e.fs s.set.lowpassBandwidth = s.set.lowpassBandwidth / 2 := by
      unfold cutoff; rw [if_neg (not_le.mpr h)]; ring
    rw [hi, this, if_neg (by linarith)]
  · intro h
    have : cutoff e.fs s.set.lowpassBandwidth = 1 / 2 * s.set.lowpassBandwidth := by
      unfold cutoff; rw [if_neg (by linarith)]
    unfold processInput
    rw [hi, this, if_pos (by linarith)]
    rfl

/-- **C111, false part.** Receiving never filters: whatever the filter's flag and bandwidth, `receive` without arguments
processes the samples as they were downloaded. -/
theorem C111_receive_fails {H : Type} (e : Env H) (s : State H) (b : Bool) (w : ℚ) :
    receive e { s with set := { s.set with lowpassFilter := b, lowpassBandwidth := w } } none = receive e s none ∧
      receive e s none = receive e s (some (e.download s.hw)) := ⟨rfl, rfl⟩

/-- **C111, adaptive sampling.** With adaptive sampling enabled, transmissions of any common sampling rate are uploaded with the
device's sampling rate and carrier frequency and without resampling; transmissions of different sampling rates raise
`RuntimeError` and upload nothing. -/
theorem C111_adaptive {H : Type} (e : Env H) (s : State H) (x : Sig) (xs : List Sig) (ha : s.set.adaptive = true)
    (hadd : ∀ a b, (e.add a b).rate = a.rate) :
    ((∀ y ∈ xs, y.rate = x.rate) → ∃ m, (transmit e s (x :: xs)).2 = .ok m ∧ m.rate = e.fs ∧ m.carrier = e.carrier ∧
        m.streams = (xs.foldl e.add x).streams ∧ (transmit e s (x :: xs)).1.hw = (e.upload s.hw m).1) ∧
      ((∃ y ∈ xs, y.rate ≠ x.rate) → transmit e s (x :: xs) = (s, .error .runtime)) := by
  have hmix1 : ∀ (xs : List Sig) (x : Sig), (∀ y ∈ xs, y.rate = x.rate) → mix e false (x :: xs) = .ok (xs.foldl e.add x) := by
    intro xs
    induction xs with
    | nil => intro x _; rfl
    | cons y ys ih =>
      intro x h
      have hy : y.rate = x.rate := h y List.mem_cons_self
      have := ih (e.add x y) (fun z hz => by rw [hadd]; exact h z (List.mem_cons_of_mem _ hz))
      show (mixStep e false x y >>= fun a => List.foldlM (mixStep e false) a ys) = _
      rw [show mixStep e false x y = .ok (e.add x y) from if_pos hy]
      exact this
  have hmix2 : ∀ (xs : List Sig) (x : Sig), (∃ y ∈ xs, y.rate ≠ x.rate) → mix e false (x :: xs) = .error .runtime := by
    intro xs
    induction xs with
    | nil => rintro x ⟨y, hy, _⟩; cases hy
    | cons y ys ih =>
      rintro x ⟨z, hz, hne⟩
      by_cases hy : y.rate = x.rate
      · have hz' : z ∈ ys := by
          rcases List.mem_cons.mp hz with rfl | h
          · exact absurd hy hne
          · exact h
        have := ih (e.add x y) ⟨z, hz', by rw [hadd]; exact hne⟩
        show (mixStep e false x y >>= fun a => List.foldlM (mixStep e false) a ys) = _
        rw [show mixStep e false x y = .ok (e.add x y) from if_pos hy]
        exact this
      · show (mixStep e false x y >>= fun a => List.foldlM (mixStep e false) a ys) = _
        rw [show mixStep e false x y = .error .runtime from if_neg hy]
        rfl
  have hc : (!s.set.adaptive || (x :: xs).isEmpty) = false := by rw [ha]; rfl
  constructor
  · intro h
    refine ⟨⟨e.fs, e.carrier, (xs.foldl e.add x).streams⟩, ?_, rfl, rfl, rfl, ?_⟩ <;>
      (unfold transmit; rw [hc, hmix1 xs x h]; rfl)
  · intro h
    unfold transmit
    rw [hc, hmix2 xs x h]
    rfl

/-- **C111, false part.** Without adaptive sampling a single operator's transmission is uploaded as it is, at whatever sampling
rate and carrier frequency it has. -/
theorem C111_rate_fails {H : Type} (e : Env H) (s : State H) (x : Sig) (ha : s.set.adaptive = false) :
    (transmit e s [x]).2 = .ok x ∧ (transmit e s [x]).1.hw = (e.upload s.hw x).1 := by
  have hc : (!s.set.adaptive || [x].isEmpty) = true := by rw [ha]; rfl
  constructor <;> (unfold transmit; rw [hc]; rfl)

/-! ## Noise powers -/

theorem correct_silent (w : Option (List ℂ)) (t n : ℕ) (hw : ∀ v, w = some v → v.length = t) :
    correct w (List.replicate t (List.replicate n 0)) = .ok (List.replicate t (List.replicate n 0)) := by
  cases w with
  | none => rfl
  | some v =>
    unfold correct
    simp only
    rw [if_neg (by rw [hw v rfl, List.length_replicate]; simp)]
    congr 1
    have : ∀ (v : List ℂ), List.zipWith (fun a r => r.map (a * ·)) v
        (List.replicate v.length (List.replicate n (0 : ℂ))) = List.replicate v.length (List.replicate n 0) := by
      intro v
      induction v with
      | nil => rfl
      | cons a v ih =>
        simp only [List.length_cons, List.replicate_succ, List.zipWith_cons_cons, List.map_replicate, mul_zero]
        rw [ih]
    rw [← hw v rfl]
    exact this v

/-- **C111, noise.** With leakage calibrations that find no leakage in silence, the estimated noise power is the mean squared
magnitude of what the device receives at each port while transmitting silence, whatever was transmitted before; it is stored
exactly if asked for. -/
theorem C111_noise_partial {H : Type} (e : Env H) (s : State H) (r n : ℕ) (cache : Bool)
    (hw : ∀ v, e.weights = some v → v.length = e.tx)
    (hr : ∀ y, e.remove (e.upload s.hw (silent e n)).2 y = .ok y) :
    (estimateNoise e s r n cache).2 =
        .ok ((e.download (e.trigger (e.upload s.hw (silent e n)).1)).streams.map power) ∧
      (estimateNoise e s r n cache).1.set.noisePower =
        if cache then some ((e.download (e.trigger (e.upload s.hw (silent e n)).1)).streams.map power)
        else s.set.noisePower := by
  set s' : State H := { s with memory := fun k => if k = r then silent e n else s.memory k } with hs'
  have hm : s'.memory r = silent e n := if_pos rfl
  have hd : (triggerDirect e s' r true).2 = .ok (e.download (e.trigger (e.upload s.hw (silent e n)).1)) := by
    unfold triggerDirect
    simp only
    rw [hm, if_neg (show ¬ (silent e n).carrier ≠ e.carrier from not_not.mpr rfl),
      if_neg (show ¬ (silent e n).rate ≠ e.fs from not_not.mpr rfl)]
    simp only [if_true]
    rw [show correct e.weights (silent e n).streams = .ok (silent e n).streams from correct_silent _ _ _ hw]
    exact hr _
  have hset := (direct_set e s' r true).1
  unfold estimateNoise
  simp only
  rw [← hs', hd]
  simp only
  cases cache with
  | true =>
    simp only [if_true]
    rw [noisePowers_power]
    exact ⟨rfl, rfl⟩
  | false =>
    simp only [Bool.false_eq_true, if_false]
    refine ⟨trivial, ?_⟩
    rw [hset]

/-- The variance of a stream, which `estimate_noise_power` is documented to return (`physical_device.py` 413-415). -/
noncomputable def variance (x : List ℂ) : ℝ :=
  (x.map fun z => ‖z - x.sum / x.length‖ ^ 2).sum / x.length

/-- **C111, false part.** The estimate is not the variance of the samples: it contains the power of their mean. -/
theorem C111_variance_fails (a : ℂ) (n : ℕ) (hn : 0 < n) :
    power (List.replicate n a) = ‖a‖ ^ 2 ∧ variance (List.replicate n a) = 0 := by
  have h : (n : ℝ) ≠ 0 := by positivity
  have h' : (n : ℂ) ≠ 0 := by exact_mod_cast (Nat.pos_iff_ne_zero.mp hn)
  constructor
  · unfold power
    rw [List.map_replicate, List.sum_replicate, List.length_replicate, nsmul_eq_mul]
    field_simp
  · unfold variance
    rw [List.map_replicate, List.sum_replicate, List.sum_replicate, List.length_replicate, nsmul_eq_mul, nsmul_eq_mul]
    have : a - n * a / n = 0 := by field_simp; ring
    rw [this]
    simp

/-! ## A loop-back device -/

/-- A device whose hardware receives what was uploaded, with a calibration that subtracts the transmission from the reception;
one port, a sampling rate of 4 and a carrier of 1. -/
noncomputable def loop (w : Option (List ℂ)) : Env Sig where
  fs := 4
  carrier := 1
  tx := 1
  rx := 1
  upload := fun _ x => (x, x)
  trigger := id
  download := id
  remove := fun t x => .ok ⟨x.rate, x.carrier, List.zipWith (List.zipWith fun b a => a - b) t.streams x.streams⟩
  weights := w
  lowpass := fun _ x => ⟨x.rate, x.carrier, x.streams.map fun r => r.map fun _ => 0⟩
  resample := fun _ x => x
  add := fun a _ => a

/-- A device as created. -/
noncomputable def fresh (m : Sig) : State Sig := ⟨⟨0, none, false, false, 0⟩, none, ⟨4, 1, [[]]⟩, fun _ => m⟩

-- Transmitting two and downloading it, nothing remains; a direct transmission of three in between leaves one.
example : receive (loop none) (run (loop none) (fresh ⟨4, 1, [[3]]⟩) [.transmit [⟨4, 1, [[2]]⟩], .trigger]) none =
    .ok ⟨4, 1, [[0]]⟩ := by
  have h := C111_leakage_partial (loop none) (fresh ⟨4, 1, [[3]]⟩) [] [.trigger] [⟨4, 1, [[2]]⟩] ⟨4, 1, [[2]]⟩ ⟨4, 1, [[2]]⟩
    rfl (by intro op h; rcases List.mem_cons.mp h with rfl | h; trivial; cases h)
  have e1 : receive (loop none) (run (loop none) (fresh ⟨4, 1, [[3]]⟩) [.transmit [⟨4, 1, [[2]]⟩], .trigger]) none =
      receive (loop none) (run (loop none) (fresh ⟨4, 1, [[3]]⟩) ([] ++ [.transmit [⟨4, 1, [[2]]⟩]] ++ [.trigger]))
        (some ⟨4, 1, [[2]]⟩) := rfl
  rw [e1, h, if_pos ⟨rfl, rfl⟩]
  show Except.ok _ = _
  simp [uploaded, transmit, run, fresh, mix, loop, pure, Except.pure]

/-- **C111, false part.** A device that receives what it transmits, with a calibration that removes all of it, receives silence
after a transmission, but not after a direct transmission in between. -/
theorem C111_stale_fails :
    receive (loop none) (run (loop none) (fresh ⟨4, 1, [[3]]⟩) [.transmit [⟨4, 1, [[2]]⟩], .direct 0 true]) none =
      .ok ⟨4, 1, [[3 - 2]]⟩ := by
  have h := C111_direct_partial (loop none) (run (loop none) (fresh ⟨4, 1, [[3]]⟩) [.transmit [⟨4, 1, [[2]]⟩]]) 0 true rfl rfl
    (Or.inr rfl)
  have h2 := run_recent (loop none) (run (loop none) (fresh ⟨4, 1, [[3]]⟩) [.transmit [⟨4, 1, [[2]]⟩]]) [.direct 0 true]
    (by intro op ho xs he; rcases List.mem_cons.mp ho with rfl | h'; cases he; cases h')
  have e0 : run (loop none) (fresh ⟨4, 1, [[3]]⟩) [.transmit [⟨4, 1, [[2]]⟩], .direct 0 true] =
      (triggerDirect (loop none) (run (loop none) (fresh ⟨4, 1, [[3]]⟩) [.transmit [⟨4, 1, [[2]]⟩]]) 0 true).1 := rfl
  have e1 : run (loop none) (run (loop none) (fresh ⟨4, 1, [[3]]⟩) [.transmit [⟨4, 1, [[2]]⟩]]) [.direct 0 true] =
      (triggerDirect (loop none) (run (loop none) (fresh ⟨4, 1, [[3]]⟩) [.transmit [⟨4, 1, [[2]]⟩]]) 0 true).1 := rfl
  rw [e1] at h2
  rw [e0]
  have hh : (triggerDirect (loop none) (run (loop none) (fresh ⟨4, 1, [[3]]⟩) [.transmit [⟨4, 1, [[2]]⟩]]) 0 true).1.hw =
      ⟨4, 1, [[3]]⟩ := h.2.1
  show receive _ _ (some _) = _
  unfold receive processInput
  rw [h2, hh]
  rfl

-- Weights of two: the third trigger of the same signal transmits it eightfold.
example : (run (loop (some [2])) (fresh ⟨4, 1, [[3]]⟩) (List.replicate 3 (.direct 0 true))).hw.streams = [[24]] := by
  rw [(C111_repeat_fails (loop (some [2])) (fresh ⟨4, 1, [[3]]⟩) 0 2 [2] rfl rfl rfl rfl).2]
  show scale _ _ = _
  norm_num [scale, fresh]

-- A constant reception of the loop-back device under silence has no power; its settings remember it.
example : (estimateNoise (loop (some [2])) (fresh ⟨4, 1, [[3]]⟩) 7 2 true).1.set.noisePower = some [0] := by
  have := (C111_noise_partial { loop (some [2]) with remove := fun _ y => .ok y } (fresh ⟨4, 1, [[3]]⟩) 7 2 true
    (by rintro v ⟨⟩; rfl) (fun y => rfl)).2
  have h2 : ((estimateNoise (loop (some [2])) (fresh ⟨4, 1, [[3]]⟩) 7 2 true).1.set.noisePower : Option (List ℝ)) =
      some [0] := by
    unfold estimateNoise triggerDirect
    simp [fresh, silent, loop, correct, power]
    rw [show (some [0] : Option (List ℝ)) = some (([[0, 0]] : List (List ℂ)).map power) by simp [power]]
    rw [noisePowers_power]
  exact h2

-- With the filter enabled, processing what was downloaded filters it, receiving it does not.
example : processInput { loop none with remove := fun _ y => .ok y }
      { fresh ⟨4, 1, [[3]]⟩ with hw := ⟨4, 1, [[5]]⟩, set := ⟨0, none, false, true, 2⟩ } none = .ok ⟨4, 1, [[0]]⟩ ∧
    receive { loop none with remove := fun _ y => .ok y }
      { fresh ⟨4, 1, [[3]]⟩ with hw := ⟨4, 1, [[5]]⟩, set := ⟨0, none, false, true, 2⟩ } none = .ok ⟨4, 1, [[5]]⟩ := by
  constructor
  · have h := (C111_lowpass_partial { loop none with remove := fun _ y => .ok y }
      { fresh ⟨4, 1, [[3]]⟩ with hw := ⟨4, 1, [[5]]⟩, set := ⟨0, none, false, true, 2⟩ } (by norm_num [loop]) rfl).2.1 (by norm_num) (by norm_num [loop])
    unfold processInput
    rw [h]
    rfl
  · rfl

/-! ## The dummy -/

/-- `PhysicalDeviceDummy`, `physical_device_dummy.py` 73-75: its flag, the uploaded and the downloaded signal. -/
structure Dummy where
  loopback : Bool
  up : Sig
  down : Sig

/-- `np.zeros` of a signal's shape, `physical_device_dummy.py` 246-249. -/
def zeros (fs carrier : ℚ) (x : Sig) : Sig := ⟨fs, carrier, x.streams.map fun r => r.map fun _ => 0⟩

/-- Calls on a dummy. -/
inductive DOp
  | transmit (m : Sig)
  | trigger
  | loopback (b : Bool)

/-- `transmit` (189-201), `trigger` (241-249) and the setter of `receive_transmission` (179-181) of `physical_device_dummy.py`. -/
def Dummy.step (fs carrier : ℚ) (d : Dummy) : DOp → Dummy
  | .transmit m => { d with up := m }
  | .trigger => { d with down := if d.loopback then d.up else zeros fs carrier d.up }
  | .loopback b => { d with loopback := b }

/-- A history of calls. -/
def Dummy.run (fs carrier : ℚ) (d : Dummy) (ops : List DOp) : Dummy := ops.foldl (Dummy.step fs carrier) d

/-- The signal `PhysicalDeviceDummy.receive` gives to the simulated device, `physical_device_dummy.py` 236-239. -/
def Dummy.received (d : Dummy) (x : Option Sig) : Sig := x.getD d.down

/-- The signal `PhysicalDeviceDummy.process_input` gives to the simulated device, `physical_device_dummy.py` 214-225. -/
def Dummy.processed (d : Dummy) (x : Option Sig) : Sig := x.getD d.up

theorem dummy_append (fs carrier : ℚ) (d : Dummy) (a b : List DOp) :
    d.run fs carrier (a ++ b) = (d.run fs carrier a).run fs carrier b := by
  unfold Dummy.run; rw [List.foldl_append]

/-- **C111, dummies.** Whatever was called before, and whatever is transmitted or configured after a trigger, a dummy receives
the transmission that was the most recent one at its last trigger, or silence of the same shape if it does not receive its
transmissions. -/
theorem C111_dummy_partial (fs carrier : ℚ) (d : Dummy) (before between after : List DOp) (m : Sig)
    (h1 : ∀ op ∈ between, ∀ x, op ≠ .transmit x) (h2 : ∀ op ∈ after, op ≠ .trigger) :
    (d.run fs carrier (before ++ [.transmit m] ++ between ++ [.trigger] ++ after)).received none =
      if (d.run fs carrier (before ++ [.transmit m] ++ between)).loopback then m else zeros fs carrier m := by
  have ha : ∀ (ops : List DOp) (d : Dummy), (∀ op ∈ ops, op ≠ .trigger) → (d.run fs carrier ops).down = d.down := by
    intro ops
    induction ops with
    | nil => intro d _; rfl
    | cons op ops ih =>
      intro d h
      show ((d.step fs carrier op).run fs carrier ops).down = _
      rw [ih _ (fun o ho => h o (List.mem_cons_of_mem _ ho))]
      cases op with
      | transmit m => rfl
      | trigger => exact absurd rfl (h _ List.mem_cons_self)
      | loopback b => rfl
  have hb : ∀ (ops : List DOp) (d : Dummy), (∀ op ∈ ops, ∀ x, op ≠ .transmit x) → (d.run fs carrier ops).up = d.up := by
    intro ops
    induction ops with
    | nil => intro d _; rfl
    | cons op ops ih =>
      intro d h
      show ((d.step fs carrier op).run fs carrier ops).up = _
      rw [ih _ (fun o ho => h o (List.mem_cons_of_mem _ ho))]
      cases op with
      | transmit m => exact absurd rfl (h _ List.mem_cons_self m)
      | trigger => rfl
      | loopback b => rfl
  have hup : (d.run fs carrier (before ++ [.transmit m] ++ between)).up = m := by
    rw [dummy_append, hb _ _ h1, dummy_append]
    rfl
  rw [dummy_append _ _ _ _ after]
  show (Dummy.run _ _ _ _).down = _
  rw [ha _ _ h2, dummy_append _ _ _ _ [.trigger]]
  show (if (d.run fs carrier (before ++ [.transmit m] ++ between)).loopback then _ else _) = _
  rw [hup]

/-- **C111, false part.** Processing a dummy's input takes the uploaded signal, triggered or not, also if the dummy is told not
to receive its transmissions. -/
theorem C111_dummy_fails (fs carrier : ℚ) (d : Dummy) (before : List DOp) (m : Sig) :
    (d.run fs carrier (before ++ [.loopback false, .transmit m])).processed none = m ∧
      (d.run fs carrier (before ++ [.loopback false, .transmit m])).loopback = false := by
  rw [dummy_append]
  exact ⟨rfl, rfl⟩

example : (Dummy.run 4 1 ⟨true, ⟨4, 1, []⟩, ⟨4, 1, []⟩⟩ [.transmit ⟨4, 1, [[7]]⟩, .trigger, .transmit ⟨4, 1, [[8]]⟩]).received none =
    ⟨4, 1, [[7]]⟩ := rfl

/-! ## Scenarios -/

/-- `PhysicalScenario.trigger_direct`, `hardware_loop/scenario.py` 75-82: the signals given to the devices. -/
def scenarioDirect (transmissions : List Sig) (devices : ℕ) : Except PyErr (List Sig) :=
  if transmissions.length ≠ devices then .error .value else .ok transmissions

/-- `PhysicalScenario.receive_devices`, `hardware_loop/scenario.py` 116-131, and the check of `Scenario.receive_operators`,
`core/scenario.py` 706-709: the signals given to the devices, `none` for downloads. -/
def scenarioReceive (signals : Option (List Sig)) (devices : ℕ) : Except PyErr (List (Option Sig)) :=
  let given : List (Option Sig) :=
    match signals with
    | none => List.replicate devices none
    | some v => v.map some
  let inputs := ((List.range devices).zip given).map Prod.snd
  if inputs.length ≠ devices then .error .value else .ok inputs

theorem zip_take (l : List ℕ) (g : List (Option Sig)) : (l.zip g).map Prod.snd = g.take l.length := by
  induction l generalizing g with
  | nil => rfl
  | cons a l ih =>
    cases g with
    | nil => rfl
    | cons b g => simp only [List.zip_cons_cons, List.map_cons, List.length_cons, List.take_succ_cons, ih]

/-- **C111, scenarios.** Triggering a scenario with another number of signals than devices raises `ValueError`, as does receiving
fewer signals than devices; otherwise each device is given its own signal, and devices download if no signals are given. -/
theorem C111_scenario_partial (v : List Sig) (n : ℕ) :
    (scenarioDirect v n = .ok v ↔ v.length = n) ∧ (v.length ≠ n → scenarioDirect v n = .error .value) ∧
      (v.length < n → scenarioReceive (some v) n = .error .value) ∧
      (v.length = n → scenarioReceive (some v) n = .ok (v.map some)) ∧
      scenarioReceive none n = .ok (List.replicate n none) := by
  have hz : ∀ g : List (Option Sig), ((List.range n).zip g).map Prod.snd = g.take n := by
    intro g
    rw [zip_take]
    simp
  refine ⟨?_, ?_, ?_, ?_, ?_⟩
  · unfold scenarioDirect
    by_cases h : v.length = n
    · simp [h]
    · simp [h]
  · intro h; unfold scenarioDirect; rw [if_pos h]
  · intro h
    unfold scenarioReceive
    simp only [hz]
    rw [if_pos]
    simp
    omega
  · intro h
    unfold scenarioReceive
    simp only [hz]
    rw [if_neg]
    · rw [List.take_of_length_le (by simp; omega)]
    · simp; omega
  · unfold scenarioReceive
    simp only [hz]
    rw [if_neg]
    · rw [List.take_of_length_le (by simp)]
    · simp

/-- **C111, false part.** Receiving more signals than there are devices does not raise, and ignores the last ones. -/
theorem C111_scenario_fails (v w : List Sig) (hw : w ≠ []) :
    (v ++ w).length ≠ v.length ∧ scenarioReceive (some (v ++ w)) v.length = .ok (v.map some) := by
  have hl : 0 < w.length := List.length_pos_iff.mpr hw
  have hz : ∀ g : List (Option Sig), ((List.range v.length).zip g).map Prod.snd = g.take v.length := by
    intro g
    rw [zip_take]
    simp
  refine ⟨by simp; exact hw, ?_⟩
  unfold scenarioReceive
  simp only [hz]
  rw [if_neg (by simp), List.map_append, List.take_left' (by simp)]

end Verif.HwDevice
