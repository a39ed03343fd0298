import Verif.Signal.Carrier
import Mathlib.Algebra.Order.Floor.Ring
import Mathlib.Algebra.Order.Floor.Semiring
import Mathlib.Algebra.Order.Archimedean.Real.Basic

/-!
# C132: static operators and the states devices hand to their operators

`hermespy/core/operators.py`, the transmit and receive states of `hermespy/core/state.py` and the wrappers around them in
`hermespy/core/device.py`.  Numbers are exact, sparse signals are represented by their samples.
-/

namespace Verif.Static

open Verif (PyErr)

/-! ### States -/

/-- `AntennaMode`, `core/antennas.py` 33-43. -/
inductive Mode where
  | tx | rx | duplex
  deriving DecidableEq

/-- An antenna of an array: an identity and its mode. -/
structure Antenna where
  id : Nat
  mode : Mode

/-- What `State.__init__` keeps, `core/state.py` 36-70; poses and velocities are of an arbitrary type. -/
structure Common (P : Type) where
  timestamp : ℝ
  pose : P
  carrier : ℝ
  bandwidth : ℝ
  oversampling : Nat

/-- `sampling_rate`, `core/state.py` 69. -/
noncomputable def Common.rate {P : Type} (c : Common P) : ℝ := c.bandwidth * c.oversampling

/-- `TransmitState` and `ReceiveState`, `core/state.py` 130-293: the ports are those of the digital signal processing and of
the front-end. -/
structure OpState (P : Type) where
  common : Common P
  antennas : List Antenna
  dspPorts : Nat
  rfPorts : Nat

/-- `DeviceState`, `core/state.py` 296-384. -/
structure DevState (P : Type) where
  common : Common P
  antennas : List Antenna
  txDsp : Nat
  rxDsp : Nat
  txRf : Nat
  rxRf : Nat

/-- `transmit_antennas` of `AntennaArrayState`, `core/antennas.py` 1172-1176. -/
def transmitting (l : List Antenna) : List Antenna := l.filter fun a => a.mode ≠ .rx

/-- `receive_antennas` of `AntennaArrayState`, `core/antennas.py` 1178-1182. -/
def receiving (l : List Antenna) : List Antenna := l.filter fun a => a.mode ≠ .tx

/-- `DeviceState.transmit_state`, `core/state.py` 433-460. -/
def DevState.transmitState {P : Type} (s : DevState P) (selected : Option (List Nat)) : OpState P :=
  ⟨s.common, transmitting s.antennas, (match selected with | none => s.txDsp | some l => l.length), s.txRf⟩

/-- `DeviceState.receive_state`, `core/state.py` 462-488. -/
def DevState.receiveState {P : Type} (s : DevState P) (selected : Option (List Nat)) : OpState P :=
  ⟨s.common, receiving s.antennas, (match selected with | none => s.rxDsp | some l => l.length), s.rxRf⟩

/-- `DeviceState.Basic`, `core/state.py` 490-554: ideal antennas are duplex. -/
def basic {P : Type} (c : Common P) (tx rx : Nat) : DevState P :=
  ⟨c, (List.range (max rx tx)).map fun i => ⟨i, .duplex⟩, tx, rx, tx, rx⟩

/-! ### Operators -/

/-- A signal model: streams, samples and their values. -/
structure Sig where
  streams : Nat
  num : Nat
  x : Nat → Nat → ℂ
  rate : ℝ
  carrier : ℝ

/-- `Signal.duration`. -/
noncomputable def Sig.duration (s : Sig) : ℝ := s.num / s.rate

/-- `Signal.Create`, `core/signal_model.py` 866-910, with the checks of the setters, lines 948-951 and 970-973. -/
noncomputable def createSignal (M N : Nat) (x : Nat → Nat → ℂ) (rate carrier : ℝ) : Except PyErr Sig :=
  open Classical in
  if rate ≤ 0 ∨ carrier < 0 then .error .value else .ok ⟨M, N, x, rate, carrier⟩

/-- Operators: `SilentTransmitter`, `SignalTransmitter` with the number of samples kept by its base class, and
`SignalReceiver`, `core/operators.py`.  All have a carrier frequency, `core/device.py` 543-580. -/
inductive Operator where
  | silent (num : ℤ) (ports : Option (List Nat)) (carrier : Option ℝ)
  | signal (num : Nat) (s : Sig) (ports : Option (List Nat)) (carrier : Option ℝ)
  | receiver (num : Nat) (power : ℝ) (ports : Option (List Nat)) (carrier : Option ℝ)

/-- `SignalTransmitter.__init__`, `core/operators.py` 112-125. -/
def createTransmitter (s : Sig) (ports : Option (List Nat)) (carrier : Option ℝ) : Operator :=
  .signal s.num s ports carrier

/-- The setter of `SignalTransmitter.signal`, `core/operators.py` 137-139. -/
def setSignal (o : Operator) (s : Sig) : Operator :=
  match o with
  | .signal n _ p c => .signal n s p c
  | o => o

/-- `SignalReceiver.__init__`, `core/operators.py` 172-186, and its setter, lines 197-201. -/
noncomputable def createReceiver (num : ℤ) (power : ℝ) (ports : Option (List Nat)) : Except PyErr Operator :=
  open Classical in
  if power < 0 then .error .value
  else if num < 0 then .error .value
  else .ok (.receiver num.toNat power ports none)

/-- `_transmit`, `core/operators.py` 74-85 and 144-152; `np.zeros` refuses negative numbers. -/
noncomputable def transmitRaw {P : Type} (o : Operator) (st : OpState P) (duration : ℝ) : Except PyErr Sig :=
  open Classical in
  match o with
  | .silent num _ _ =>
    let n : ℤ := if duration ≤ 0 then num else ⌊duration * st.common.rate⌋
    if n < 0 then .error .value
    else createSignal st.dspPorts n.toNat (fun _ _ => 0) st.common.rate st.common.carrier
  | .signal _ s _ _ => if st.common.rate ≤ 0 then .error .value else .ok { s with rate := st.common.rate }
  | .receiver .. => .error .attribute

/-- `Transmitter.transmit`, `core/device.py` 943-982. -/
noncomputable def transmit {P : Type} (o : Operator) (st : DevState P) (duration : ℝ) : Except PyErr Sig :=
  match o with
  | .silent _ p _ => transmitRaw o (st.transmitState p) duration
  | .signal _ _ p _ => transmitRaw o (st.transmitState p) duration
  | .receiver .. => .error .attribute

/-- `Receiver.receive`, `core/device.py` 663-704, of a signal receiver, `core/operators.py` 215-217. -/
def receive {P : Type} (o : Operator) (s : Sig) (st : DevState P) : Except PyErr Sig :=
  match o with
  | .receiver _ _ p _ => if s.streams ≠ (st.receiveState p).dspPorts then .error .value else .ok s
  | _ => .error .attribute

/-- `frame_duration`, `core/operators.py` 141-142 and 203-204; silent transmitters have none. -/
noncomputable def frameDuration (o : Operator) (bandwidth : ℝ) : Except PyErr ℝ :=
  match o with
  | .silent .. => .error .attribute
  | .signal n _ _ _ => .ok (n / bandwidth)
  | .receiver n _ _ _ => .ok (n / bandwidth)

/-- `samples_per_frame`, `core/operators.py` 211-213. -/
def samplesPerFrame (o : Operator) (_bandwidth : ℝ) (_oversampling : Nat) : Except PyErr Nat :=
  match o with
  | .receiver n _ _ _ => .ok n
  | _ => .error .attribute

/-- The sum of squared magnitudes of a stream over the number of samples, `core/signal_model.py` 486-505; numpy's is not a number
without samples. -/
noncomputable def streamPower (s : Sig) (m : Nat) : ℝ := (∑ n ∈ Finset.range s.num, ‖s.x m n‖ ^ 2) / s.num

/-- `power`, `core/operators.py` 70-72, 127-129 and 206-209. -/
noncomputable def power (o : Operator) : ℝ :=
  match o with
  | .silent .. => 0
  | .signal _ s _ _ => (∑ m ∈ Finset.range s.streams, streamPower s m) / s.streams
  | .receiver _ p _ _ => p

/-- The loop of `Device.max_frame_duration`, `core/device.py` 1307-1315. -/
noncomputable def maxFrameDuration (bandwidth : ℝ) : ℝ → List Operator → Except PyErr ℝ
  | acc, [] => .ok acc
  | acc, o :: os => do maxFrameDuration bandwidth (max acc (← frameDuration o bandwidth)) os

/-! ### States of operators -/

/-- C132: operators see the time, pose, carrier frequency, bandwidth and rate of the device, exactly its transmitting (or
receiving) antennas in their order, and as many streams as ports they selected, or all. -/
theorem C132_state_partial {P : Type} (s : DevState P) (sel : Option (List Nat)) :
    (s.transmitState sel).common = s.common ∧ (s.receiveState sel).common = s.common ∧
    (s.transmitState sel).antennas.Sublist s.antennas ∧ (s.receiveState sel).antennas.Sublist s.antennas ∧
    (∀ a ∈ s.antennas, a ∈ (s.transmitState sel).antennas ↔ a.mode ≠ .rx) ∧
    (∀ a ∈ s.antennas, a ∈ (s.receiveState sel).antennas ↔ a.mode ≠ .tx) ∧
    (∀ l, sel = some l → (s.transmitState sel).dspPorts = l.length ∧ (s.receiveState sel).dspPorts = l.length) ∧
    (sel = none → (s.transmitState sel).dspPorts = s.txDsp ∧ (s.receiveState sel).dspPorts = s.rxDsp) ∧
    (s.transmitState sel).rfPorts = s.txRf ∧ (s.receiveState sel).rfPorts = s.rxRf := by
  refine ⟨rfl, rfl, List.filter_sublist, List.filter_sublist, ?_, ?_, ?_, ?_, rfl, rfl⟩
  · intro a ha
    simp only [DevState.transmitState, transmitting, List.mem_filter, ha, true_and, decide_eq_true_eq]
  · intro a ha
    simp only [DevState.receiveState, receiving, List.mem_filter, ha, true_and, decide_eq_true_eq]
  · rintro l rfl; exact ⟨rfl, rfl⟩
  · rintro rfl; exact ⟨rfl, rfl⟩

/-- C132: the antennas do not depend on the ports selected: an operator restricted to some ports sees the antennas of
all. -/
theorem C132_selection_fails {P : Type} (s : DevState P) (l : List Nat) (hl : l.length < (transmitting s.antennas).length) :
    (s.transmitState (some l)).dspPorts < (s.transmitState (some l)).antennas.length := hl

example : ∃ s : DevState Unit, [0].length < (transmitting s.antennas).length :=
  ⟨basic ⟨0, (), 0, 1, 1⟩ 2 2, by decide⟩

/-- C132: in basic states with equal numbers of ports, antennas and ports agree. -/
theorem C132_basic_partial {P : Type} (c : Common P) (n : Nat) (sel : Option (List Nat)) :
    ((basic c n n).transmitState sel).antennas.length = n ∧ ((basic c n n).transmitState sel).rfPorts = n ∧
    ((basic c n n).receiveState sel).antennas.length = n ∧ ((basic c n n).receiveState sel).rfPorts = n := by
  simp [basic, DevState.transmitState, DevState.receiveState, transmitting, receiving, List.filter_map, Function.comp_def]

/-- C132: otherwise they do not: every antenna of a basic state transmits and receives. -/
theorem C132_basic_fails {P : Type} (c : Common P) (tx rx : Nat) (h : tx < rx) (sel : Option (List Nat)) :
    ((basic c tx rx).transmitState sel).rfPorts < ((basic c tx rx).transmitState sel).antennas.length ∧
    ((basic c rx tx).receiveState sel).rfPorts < ((basic c rx tx).receiveState sel).antennas.length := by
  simp [basic, DevState.transmitState, DevState.receiveState, transmitting, receiving, List.filter_map, Function.comp_def, h,
    h.le]

/-- C132: the carrier frequency of an operator, `core/device.py` 558-580, which is to replace that of the device, matters
nowhere. -/
theorem C132_mixing_fails {P : Type} (st : DevState P) (d : ℝ) (c c' : Option ℝ) (p : Option (List Nat)) (n : ℤ) (k : Nat)
    (s : Sig) (w : ℝ) :
    transmit (.silent n p c) st d = transmit (.silent n p c') st d ∧
    transmit (.signal k s p c) st d = transmit (.signal k s p c') st d ∧
    receive (.receiver k w p c) s st = receive (.receiver k w p c') s st := ⟨rfl, rfl, rfl⟩

/-! ### Silence -/

/-- C132: a silent transmitter sends zeros over as many streams as it selected, at the rate and carrier frequency of the
device: its number of samples, or the whole samples within the duration requested. -/
theorem C132_silent {P : Type} (num : Nat) (p : Option (List Nat)) (c : Option ℝ) (st : DevState P) (d : ℝ)
    (hr : 0 < st.common.rate) (hc : 0 ≤ st.common.carrier) :
    ∃ s, transmit (.silent num p c) st d = .ok s ∧ s.streams = (st.transmitState p).dspPorts ∧
      (∀ m n, s.x m n = 0) ∧ s.rate = st.common.rate ∧ s.carrier = st.common.carrier ∧
      (d ≤ 0 → s.num = num) ∧
      (0 < d → (s.num : ℝ) ≤ d * st.common.rate ∧ d * st.common.rate < s.num + 1) := by
  have hcr : ∀ M N, createSignal M N (fun _ _ => 0) st.common.rate st.common.carrier =
      .ok ⟨M, N, fun _ _ => 0, st.common.rate, st.common.carrier⟩ := by
    intro M N
    unfold createSignal
    rw [if_neg (by rintro (h | h) <;> linarith)]
  by_cases hd : d ≤ 0
  · refine ⟨⟨(st.transmitState p).dspPorts, num, fun _ _ => 0, st.common.rate, st.common.carrier⟩, ?_, rfl,
      fun _ _ => rfl, rfl, rfl, fun _ => rfl, fun h => absurd hd (not_le.mpr h)⟩
    simp only [transmit, transmitRaw, if_pos hd]
    rw [if_neg (by omega)]
    exact hcr _ _
  · have h0 : 0 ≤ d * st.common.rate := mul_nonneg (not_le.mp hd).le hr.le
    have hf : 0 ≤ ⌊d * st.common.rate⌋ := Int.floor_nonneg.mpr h0
    have hcast : ((⌊d * st.common.rate⌋.toNat : ℕ) : ℝ) = ((⌊d * st.common.rate⌋ : ℤ) : ℝ) := by
      rw [← Int.cast_natCast, Int.toNat_of_nonneg hf]
    refine ⟨⟨(st.transmitState p).dspPorts, ⌊d * st.common.rate⌋.toNat, fun _ _ => 0, st.common.rate, st.common.carrier⟩,
      ?_, rfl, fun _ _ => rfl, rfl, rfl, fun h => absurd h hd, fun _ => ⟨?_, ?_⟩⟩
    · simp only [transmit, transmitRaw, if_neg hd]
      have e : (st.transmitState p).common.rate = st.common.rate := rfl
      rw [e, if_neg (not_lt.mpr hf)]
      exact hcr _ _
    · rw [hcast]; exact Int.floor_le _
    · rw [hcast]; exact Int.lt_floor_add_one _

example : ∃ st : DevState Unit, 0 < st.common.rate ∧ 0 ≤ st.common.carrier :=
  ⟨basic ⟨0, (), 0, 1, 1⟩ 1 1, by simp [basic, Common.rate], by simp [basic]⟩

/-- C132: a device with a silent transmitter has no maximum frame duration, for instance for random triggers. -/
theorem C132_silent_frame_fails (bandwidth acc : ℝ) (os os' : List Operator) (num : ℤ) (p : Option (List Nat)) (c : Option ℝ) :
    ∃ e, maxFrameDuration bandwidth acc (os ++ .silent num p c :: os') = .error e := by
  induction os generalizing acc with
  | nil => exact ⟨_, rfl⟩
  | cons o os ih =>
    simp only [List.cons_append, maxFrameDuration]
    cases frameDuration o bandwidth with
    | error e => exact ⟨e, rfl⟩
    | ok d => exact ih (max acc d)

/-- C132: without silent transmitters, it is the longest frame. -/
theorem C132_frame (bandwidth acc : ℝ) (os : List Operator) (dur : Operator → ℝ)
    (h : ∀ o ∈ os, frameDuration o bandwidth = .ok (dur o)) :
    ∃ d, maxFrameDuration bandwidth acc os = .ok d ∧ acc ≤ d ∧ (∀ o ∈ os, dur o ≤ d) ∧ (d = acc ∨ ∃ o ∈ os, d = dur o) := by
  induction os generalizing acc with
  | nil => exact ⟨acc, rfl, le_rfl, by simp, Or.inl rfl⟩
  | cons o os ih =>
    obtain ⟨d, h1, h2, h3, h4⟩ := ih (max acc (dur o)) fun x hx => h x (List.mem_cons_of_mem _ hx)
    refine ⟨d, ?_, (le_max_left _ _).trans h2, ?_, ?_⟩
    · simp only [maxFrameDuration, h o List.mem_cons_self]
      exact h1
    · intro x hx
      rcases List.mem_cons.mp hx with rfl | hx
      · exact (le_max_right _ _).trans h2
      · exact h3 x hx
    · rcases h4 with h4 | ⟨x, hx, h4⟩
      · rcases max_choice acc (dur o) with hm | hm
        · exact Or.inl (h4.trans hm)
        · exact Or.inr ⟨o, List.mem_cons_self, h4.trans hm⟩
      · exact Or.inr ⟨x, List.mem_cons_of_mem _ hx, h4⟩

example (s : Sig) : ∀ o ∈ [createTransmitter s none none], frameDuration o 2 = .ok (s.num / 2) := by
  simp [createTransmitter, frameDuration]

/-! ### Static signals -/

/-- C132: every sample of the signal is transmitted as it is, at the rate of the device, whatever the duration requested. -/
theorem C132_signal_partial {P : Type} (k : Nat) (s : Sig) (p : Option (List Nat)) (c : Option ℝ) (st : DevState P) (d : ℝ)
    (hr : 0 < st.common.rate) :
    ∃ t, transmit (.signal k s p c) st d = .ok t ∧ t.streams = s.streams ∧ t.num = s.num ∧ (∀ m n, t.x m n = s.x m n) ∧
      t.rate = st.common.rate ∧ t.carrier = s.carrier ∧ (s.rate = st.common.rate → t = s ∧ t.duration = s.duration) := by
  refine ⟨{ s with rate := st.common.rate }, ?_, rfl, rfl, fun _ _ => rfl, rfl, rfl, fun h => ?_⟩
  · simp only [transmit, transmitRaw]
    have e : (st.transmitState p).common.rate = st.common.rate := rfl
    rw [e, if_neg (not_le.mpr hr)]
  · rw [← h]; exact ⟨rfl, rfl⟩

/-- C132: the signal is not resampled to the rate of the device.  A tone of frequency `f` is transmitted with its frequency
multiplied by the ratio of rates, and its duration is divided by it. -/
theorem C132_rate_fails {P : Type} (N k : Nat) (r f : ℝ) (hr : 0 < r) (p : Option (List Nat)) (c : Option ℝ) (st : DevState P)
    (d : ℝ) (hR : 0 < st.common.rate) (carrier : ℝ) :
    ∃ t, transmit (.signal k ⟨1, N, fun _ n => Carrier.turn (f * (n / r)), r, carrier⟩ p c) st d = .ok t ∧
      (∀ n, t.x 0 n = Carrier.turn ((f * (st.common.rate / r)) * (n / t.rate))) ∧
      t.duration * (st.common.rate / r) = N / r := by
  obtain ⟨t, h1, -, h2, h3, h4, -⟩ := C132_signal_partial k ⟨1, N, fun _ n => Carrier.turn (f * (n / r)), r, carrier⟩ p c st d hR
  refine ⟨t, h1, fun n => ?_, ?_⟩
  · rw [h3, h4]
    dsimp only
    congr 1
    field_simp
  · unfold Sig.duration
    rw [h2, h4]
    dsimp only
    field_simp

/-- C132: nor is it refused if it has other than the streams selected. -/
theorem C132_streams_fails {P : Type} (k : Nat) (s : Sig) (l : List Nat) (h : s.streams ≠ l.length) (c : Option ℝ)
    (st : DevState P) (d : ℝ) (hr : 0 < st.common.rate) :
    ∃ t, transmit (.signal k s (some l) c) st d = .ok t ∧ t.streams ≠ (st.transmitState (some l)).dspPorts := by
  obtain ⟨t, h1, h2, -⟩ := C132_signal_partial k s (some l) c st d hr
  exact ⟨t, h1, by rw [h2]; exact h⟩

/-- C132: the frame duration announced is the duration transmitted if there is no oversampling and the signal has not been
replaced. -/
theorem C132_duration_partial {P : Type} (s : Sig) (p : Option (List Nat)) (c : Option ℝ) (st : DevState P) (d : ℝ)
    (hb : 0 < st.common.bandwidth) (ho : st.common.oversampling = 1) :
    ∃ t, transmit (createTransmitter s p c) st d = .ok t ∧
      frameDuration (createTransmitter s p c) st.common.bandwidth = .ok t.duration := by
  have hr : 0 < st.common.rate := by rw [Common.rate, ho]; simpa using hb
  obtain ⟨t, h1, -, h2, -, h4, -⟩ := C132_signal_partial s.num s p c st d hr
  refine ⟨t, h1, ?_⟩
  simp only [createTransmitter, frameDuration, Sig.duration, h2, h4, Common.rate, ho, Nat.cast_one, mul_one]

/-- C132: with oversampling, the frame duration announced is that many times as long as what is transmitted. -/
theorem C132_duration_fails {P : Type} (s : Sig) (hs : 0 < s.num) (p : Option (List Nat)) (c : Option ℝ) (st : DevState P) (d : ℝ)
    (hb : 0 < st.common.bandwidth) (ho : 2 ≤ st.common.oversampling) :
    ∃ t f, transmit (createTransmitter s p c) st d = .ok t ∧
      frameDuration (createTransmitter s p c) st.common.bandwidth = .ok f ∧
      f = st.common.oversampling * t.duration ∧ 2 * t.duration ≤ f ∧ 0 < t.duration := by
  have ho' : (0 : ℝ) < st.common.oversampling := by exact_mod_cast (by omega : 0 < st.common.oversampling)
  have ho2 : (2 : ℝ) ≤ st.common.oversampling := by exact_mod_cast ho
  have hr : 0 < st.common.rate := mul_pos hb ho'
  obtain ⟨t, h1, -, h2, -, h4, -⟩ := C132_signal_partial s.num s p c st d hr
  have hn : (0 : ℝ) < s.num := by exact_mod_cast hs
  have htd : t.duration = s.num / (st.common.bandwidth * st.common.oversampling) := by
    rw [Sig.duration, h2, h4, Common.rate]
  have hpos : 0 < t.duration := by rw [htd]; positivity
  have he : (s.num : ℝ) / st.common.bandwidth = st.common.oversampling * t.duration := by
    rw [htd]; field_simp
  exact ⟨t, _, h1, rfl, he, by rw [he]; nlinarith, hpos⟩

/-- C132: after a signal has been replaced, the frame duration is still that of the first. -/
theorem C132_setter_fails {P : Type} (s s' : Sig) (p : Option (List Nat)) (c : Option ℝ) (st : DevState P) (d : ℝ)
    (hb : 0 < st.common.bandwidth) (ho : st.common.oversampling = 1) (hne : s'.num ≠ s.num) :
    ∃ t f, transmit (setSignal (createTransmitter s p c) s') st d = .ok t ∧ t.num = s'.num ∧
      frameDuration (setSignal (createTransmitter s p c) s') st.common.bandwidth = .ok f ∧ f ≠ t.duration := by
  have hr : 0 < st.common.rate := by rw [Common.rate, ho]; simpa using hb
  obtain ⟨t, h1, -, h2, -, h4, -⟩ := C132_signal_partial s.num s' p c st d hr
  refine ⟨t, _, h1, h2, rfl, fun he => hne ?_⟩
  rw [Sig.duration, h2, h4, Common.rate, ho, Nat.cast_one, mul_one] at he
  have := (div_left_inj' hb.ne').mp he
  exact_mod_cast this.symm

/-- C132: the signal a transmitter sends alone keeps its own carrier frequency, so it is the carrier frequency of the
device's output.  After silence, which has the carrier frequency of the device, nothing of it remains if bands do not
overlap. -/
theorem C132_carrier_fails (F : Carrier.Firwin) (r f0 f : ℝ) (hr : 0 < r) (hd : r ≤ |f - f0|) (x : List ℂ) (hx : 0 < x.length) :
    Carrier.superimposeAll F r ⟨[], f0⟩ [⟨x, f⟩, ⟨List.replicate x.length 0, f0⟩] = .ok ⟨x, f⟩ ∧
    Carrier.superimposeAll F r ⟨[], f0⟩ [⟨List.replicate x.length 0, f0⟩, ⟨x, f⟩] = .ok ⟨List.replicate x.length 0, f0⟩ :=
  Carrier.C128_empty_fails F r f0 f hr hd x _ hx (by simp)

/-- C132: silence changes no signal of the device's carrier frequency but its length. -/
theorem C132_silence_neutral (F : Carrier.Firwin) (r f : ℝ) (hr : 0 < r) (x : List ℂ) (hx : 0 < x.length) (n : Nat) :
    ∃ y, Carrier.superimposeAll F r ⟨[], f⟩ [⟨x, f⟩, ⟨List.replicate n 0, f⟩] = .ok y ∧ y.carrier = f ∧
      y.samples.length = max x.length n ∧ ∀ k, y.samples.getD k 0 = x.getD k 0 := by
  refine ⟨⟨(List.range (max x.length n)).map fun k => x.getD k 0 + (List.replicate n (0 : ℂ)).getD k 0, f⟩, ?_, rfl, by simp, ?_⟩
  · simp only [Carrier.superimposeAll, Carrier.superimpose, List.length_nil, Nat.lt_one_iff, if_true, bind, Except.bind,
      if_neg hx.ne', Carrier.C128_same F r f hr, List.length_replicate]
  · intro k
    have hz : (List.replicate n (0 : ℂ)).getD k 0 = 0 := by
      rw [List.getD_eq_getElem?_getD, List.getElem?_replicate]
      split <;> rfl
    dsimp only
    rw [List.getD_eq_getElem?_getD, List.getElem?_map]
    by_cases hk : k < max x.length n
    · rw [List.getElem?_range hk, Option.map_some, Option.getD_some, hz, add_zero]
    · rw [List.getElem?_eq_none (by simpa using hk), Option.map_none, Option.getD_none]
      rw [List.getD_eq_default _ _ (by omega)]

/-! ### Histories of a static transmitter -/

/-- Signals are objects: the heap of all, the one of the transmitter, and those returned by transmissions. -/
structure World where
  heap : List Sig
  own : Nat
  sent : List Nat

/-- What may happen: a transmission at some rate, or a write to any signal. -/
inductive Event where
  | transmit (rate : ℝ)
  | write (target : Nat) (s : Sig)

/-- `SignalTransmitter._transmit`, `core/operators.py` 144-152, copies the signal before its rate is set. -/
def World.step (w : World) : Event → World
  | .transmit r => match w.heap[w.own]? with
    | none => w
    | some s => ⟨w.heap ++ [{ s with rate := r }], w.own, w.sent ++ [w.heap.length]⟩
  | .write t s => { w with heap := w.heap.set t s }

/-- C132: whatever is done to signals transmitted before, and at whatever rates, the transmitter's signal is never changed by
transmissions, each transmission is a new object with the samples of that signal. -/
theorem C132_history (w : World) (s : Sig) (hs : w.heap[w.own]? = some s) (es : List Event)
    (hw : ∀ t u, Event.write t u ∈ es → t ≠ w.own) (r : ℝ) :
    let v := es.foldl World.step w
    v.own = w.own ∧ v.heap[v.own]? = some s ∧ w.heap.length ≤ v.heap.length ∧
    ∃ t, (v.step (.transmit r)).sent = v.sent ++ [t] ∧ (v.step (.transmit r)).heap[t]? = some { s with rate := r } ∧
      (∀ u < v.heap.length, u ≠ t ∧ (v.step (.transmit r)).heap[u]? = v.heap[u]?) := by
  intro v
  have key : v.own = w.own ∧ v.heap[v.own]? = some s ∧ w.heap.length ≤ v.heap.length := by
    show (es.foldl World.step w).own = w.own ∧ _
    induction es using List.reverseRecOn with
    | nil => exact ⟨rfl, hs, le_rfl⟩
    | append_singleton es e ih =>
      obtain ⟨h1, h2, h3⟩ := ih fun t u h => hw t u (by simp [h])
      show (List.foldl World.step w (es ++ [e])).own = w.own ∧
        (List.foldl World.step w (es ++ [e])).heap[(List.foldl World.step w (es ++ [e])).own]? = some s ∧
        w.heap.length ≤ (List.foldl World.step w (es ++ [e])).heap.length
      rw [List.foldl_append]
      simp only [List.foldl_cons, List.foldl_nil]
      generalize List.foldl World.step w es = x at h1 h2 h3
      cases e with
      | transmit q =>
        simp only [World.step, h2]
        refine ⟨h1, ?_, by simp; omega⟩
        have hlt : x.own < x.heap.length := (List.getElem?_eq_some_iff.mp h2).1
        rw [List.getElem?_append_left hlt, h2]
      | write t u =>
        have ht := hw t u (by simp)
        refine ⟨h1, ?_, by simpa [World.step] using h3⟩
        show (x.heap.set t u)[x.own]? = some s
        rw [List.getElem?_set_ne (by rw [h1]; exact ht), h2]
  obtain ⟨h1, h2, h3⟩ := key
  refine ⟨h1, h2, h3, v.heap.length, ?_, ?_, fun u hu => ⟨hu.ne, ?_⟩⟩
  · simp only [World.step, h2]
  · simp only [World.step, h2, List.getElem?_concat_length]
  · simp only [World.step, h2, List.getElem?_append_left hu]

example (s s' : Sig) : ∀ t u, Event.write t u ∈ [Event.transmit 2, .write 1 s', .transmit 3] → t ≠ (⟨[s], 0, []⟩ : World).own := by
  intro t u h
  simp at h
  rw [h.1]
  exact Nat.one_ne_zero

/-! ### Receivers and powers -/

/-- C132: a signal receiver returns signals of the streams selected as they are and refuses all others. -/
theorem C132_receive {P : Type} (num : Nat) (w : ℝ) (p : Option (List Nat)) (c : Option ℝ) (s : Sig) (st : DevState P) :
    (s.streams = (st.receiveState p).dspPorts → receive (.receiver num w p c) s st = .ok s) ∧
    (s.streams ≠ (st.receiveState p).dspPorts → receive (.receiver num w p c) s st = .error .value) := by
  constructor <;> intro h <;> simp [receive, h]

/-- C132: receivers of a negative power or number of samples are refused, others have what was given. -/
theorem C132_receiver (num : ℤ) (w : ℝ) (p : Option (List Nat)) :
    (∃ o, createReceiver num w p = .ok o ∧ power o = w ∧ ∀ b k, samplesPerFrame o b k = .ok num.toNat) ∧ 0 ≤ w ∧ 0 ≤ num ∨
    createReceiver num w p = .error .value ∧ (w < 0 ∨ num < 0) := by
  unfold createReceiver
  by_cases h1 : w < 0
  · right; rw [if_pos h1]; exact ⟨rfl, Or.inl h1⟩
  · by_cases h2 : num < 0
    · right; rw [if_neg h1, if_pos h2]; exact ⟨rfl, Or.inr h2⟩
    · left
      rw [if_neg h1, if_neg h2]
      exact ⟨⟨_, rfl, rfl, fun _ _ => rfl⟩, not_lt.mp h1, not_lt.mp h2⟩

/-- C132: the samples a receiver asks for do not last its frame duration at the rate of an oversampling device. -/
theorem C132_receiver_duration_fails (num : Nat) (hn : 0 < num) (w : ℝ) (p : Option (List Nat)) (c : Option ℝ) (b : ℝ) (hb : 0 < b)
    (k : Nat) (hk : 2 ≤ k) :
    ∃ n f, samplesPerFrame (.receiver num w p c) b k = .ok n ∧ frameDuration (.receiver num w p c) b = .ok f ∧
      n / (b * k) < f := by
  refine ⟨num, _, rfl, rfl, ?_⟩
  have hn' : (0 : ℝ) < num := by exact_mod_cast hn
  have hk' : (2 : ℝ) ≤ k := by exact_mod_cast hk
  exact div_lt_div_of_pos_left hn' hb (by nlinarith)

/-- C132: the power of a silent transmitter is that of its signal; that of a static transmitter is the mean power of the
streams it sends, at every rate. -/
theorem C132_power {P : Type} (o : Operator) (st : DevState P) (d : ℝ) (t : Sig) (h : transmit o st d = .ok t) :
    power o = (∑ m ∈ Finset.range t.streams, streamPower t m) / t.streams := by
  cases o with
  | silent num p c =>
    simp only [transmit, transmitRaw] at h
    have ht : ∀ m n, t.x m n = 0 := by
      have aux : ∀ (M N : Nat) (r f : ℝ), createSignal M N (fun _ _ => 0) r f = .ok t → ∀ m n, t.x m n = 0 := by
        intro M N r f hh
        unfold createSignal at hh
        by_cases hrf : r ≤ 0 ∨ f < 0
        · rw [if_pos hrf] at hh; cases hh
        · rw [if_neg hrf] at hh; cases hh; exact fun _ _ => rfl
      by_cases hd : d ≤ 0
      · rw [if_pos hd] at h
        by_cases hn : num < 0
        · rw [if_pos hn] at h; cases h
        · rw [if_neg hn] at h; exact aux _ _ _ _ h
      · rw [if_neg hd] at h
        by_cases hn : ⌊d * (st.transmitState p).common.rate⌋ < 0
        · rw [if_pos hn] at h; cases h
        · rw [if_neg hn] at h; exact aux _ _ _ _ h
    have hz : ∀ m, streamPower t m = 0 := by
      intro m
      unfold streamPower
      rw [Finset.sum_eq_zero fun n _ => by rw [ht]; simp, zero_div]
    simp [power, hz]
  | signal k s p c =>
    simp only [transmit, transmitRaw] at h
    split at h
    · cases h
    · cases h; rfl
  | receiver => cases h

example : ∃ (o : Operator) (st : DevState Unit) (t : Sig), transmit o st 0 = .ok t ∧ power o = 1 := by
  refine ⟨createTransmitter ⟨1, 1, fun _ _ => 1, 1, 0⟩ none none, basic ⟨0, (), 0, 1, 1⟩ 1 1,
    ⟨1, 1, fun _ _ => 1, 1, 0⟩, ?_, ?_⟩
  · simp only [createTransmitter, transmit, transmitRaw]
    rw [if_neg (by simp [DevState.transmitState, basic, Common.rate])]
    simp [DevState.transmitState, basic, Common.rate]
  · simp [createTransmitter, power, streamPower]

end Verif.Static
