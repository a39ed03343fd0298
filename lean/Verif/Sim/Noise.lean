import Verif.Np
import Verif.Sim.White
import Verif.Modem.Pulse

/-!
# C99: noise levels

`hermespy/simulation/rf/noise/level.py`, `rf/noise/model.py`, `simulation/modem/noise.py`, and the noise of simulated devices,
`simulation/simulated_device.py`.  Numbers are real.  Devices are those with the radio frequency chain built by default, of
ideal mixers and converters without quantization; the anti-aliasing filter of oversampled blocks (`rf/block.py` 206-251), streams
coded by the device, and signals of several blocks are not modelled.
-/

open MeasureTheory ProbabilityTheory

namespace Verif.Noise

/-- `scipy.constants.Boltzmann`. -/
noncomputable def boltzmann : ℝ := 1.380649e-23

/-- What noise levels use of a waveform: `symbol_energy(bandwidth, oversampling_factor)` and `bits_per_symbol`. -/
structure Reference where
  symbolEnergy : ℝ → ℕ → ℝ
  bits : ℕ

/-- Noise levels: `level.py` 76-124, 127-197, 200-305, `modem/noise.py` 19-90, 93-103, 106-116.  Signal to noise ratios carry
the power of their reference and the channel scale last observed; levels relative to waveforms may be infinite (`none`), and
their reference a modem without waveform (`none`). -/
inductive Level
  | thermal (temperature : ℝ)
  | n0 (power : ℝ)
  | snr (ratio referencePower scale : ℝ)
  | ebn0 (level : Option ℝ) (reference : Option Reference)
  | esn0 (level : Option ℝ) (reference : Option Reference)

/-- The setters of `level`, `level.py` 100-106, 151-171, 253-255 and 275-280, `modem/noise.py` 53-58; also `<<`, lines 61-73
and 173-181. -/
noncomputable def Level.set (v : ℝ) : Level → Except PyErr Level
  | .thermal _ => if v < 0 then .error .value else .ok (.thermal v)
  | .n0 _ => if v < 0 then .error .value else .ok (.n0 v)
  | .snr _ p c => if v ≤ 0 then .error .value else .ok (.snr v p c)
  | .ebn0 _ r => if v ≤ 0 then .error .value else .ok (.ebn0 (some v) r)
  | .esn0 _ r => if v ≤ 0 then .error .value else .ok (.esn0 (some v) r)

/-- Division by a level which may be infinite. -/
noncomputable def over (x : ℝ) : Option ℝ → ℝ
  | none => 0
  | some l => x / l

/-- `get_power`: `level.py` 109-110, 183-184, 258-259, `modem/noise.py` 73-90, 97-98 and 110-111, `modem/waveform.py` 408. -/
noncomputable def Level.power (bandwidth : ℝ) : Level → Except PyErr ℝ
  | .thermal t => .ok (4 * 50 * boltzmann * t * bandwidth)
  | .n0 p => .ok (p * bandwidth)
  | .snr r p c => .ok (p / r * c)
  | .ebn0 l r => match r with
    | none => .error .runtime
    | some w => if w.bits = 0 then .error .zeroDivision else .ok (over (w.symbolEnergy bandwidth 1 / w.bits) l)
  | .esn0 l r => match r with
    | none => .error .runtime
    | some w => .ok (over (w.symbolEnergy bandwidth 1) l)

/-- A dense signal with the noise power it reports. -/
structure Sig where
  ports : ℕ
  len : ℕ
  val : ℕ → ℕ → ℂ
  noisePower : ℝ

/-- `AWGNRealization`: power and seed. -/
structure Realization where
  power : ℝ
  seed : ℕ

/-- `AWGN.realize`, `model.py` 177-178, and `NoiseRealization.__init__`, lines 33-49. -/
noncomputable def realize (power : ℝ) (seed : ℕ) : Except PyErr Realization :=
  if power < 0 then .error .value else .ok ⟨power, seed⟩

/-- Sample `t` of stream `a` of the noise added to signals of shape `(P, N)`, `model.py` 151-153. -/
noncomputable def Realization.sample (z : ℕ → ℕ → ℝ) (r : Realization) (P N a t : ℕ) : ℂ :=
  (((0.5 * r.power) ^ (0.5 : ℝ) : ℝ) : ℂ) * (z r.seed (a * N + t) + Complex.I * z r.seed (P * N + (a * N + t)))

/-- `AWGNRealization.add_to`, `model.py` 143-160. -/
noncomputable def Realization.addTo (z : ℕ → ℕ → ℝ) (r : Realization) (s : Sig) : Sig :=
  if r.power = 0 then s
  else { s with
    val := fun a t => s.val a t + r.sample z s.ports s.len a t
    noisePower := r.power }

/-- A simulated device: the noise level objects of the device and of the blocks of its radio frequency chain, by number. -/
structure Device where
  own : ℕ
  dac : ℕ
  up : ℕ
  adc : ℕ
  down : ℕ

/-- `SimulatedDevice.__init__`, lines 1233 and 1244-1276, for noise level objects `levels` existing before: all blocks are given
the device's noise level object. -/
noncomputable def construct (levels : List Level) : Option ℕ → List Level × Device
  | none => (levels ++ [.n0 0], ⟨levels.length, levels.length, levels.length, levels.length, levels.length⟩)
  | some l => (levels, ⟨l, l, l, l, l⟩)

/-- What is done to noise levels: new objects, `device.noise_level = …`, lines 1356-1358, `device.noise = …`, lines 1383-1385, and
setting the level of any object. -/
inductive Op
  | create (l : Level)
  | assign (i : ℕ)
  | noise (v : ℝ)
  | set (i : ℕ) (v : ℝ)

/-- The level of object `i` is set; refused values change nothing. -/
noncomputable def setAt (levels : List Level) (i : ℕ) (v : ℝ) : List Level :=
  match levels[i]? with
  | none => levels
  | some l => match l.set v with
    | .error _ => levels
    | .ok l' => levels.set i l'

/-- One operation. -/
noncomputable def Op.run (s : List Level × Device) : Op → List Level × Device
  | .create l => (s.1 ++ [l], s.2)
  | .assign i => if i < s.1.length then (s.1, { s.2 with own := i }) else s
  | .noise v => (setAt s.1 s.2.own v, s.2)
  | .set i v => (setAt s.1 i v, s.2)

/-- The realization of a noise level object, `realize` of blocks (`rf/blocks/ad.py` 425 and 660, `mixers.py` 283) and of
receptions (`simulated_device.py` 1778-1780). -/
noncomputable def realizeLevel (levels : List Level) (bandwidth : ℝ) (i seed : ℕ) : Except PyErr Realization :=
  match levels[i]? with
  | none => .error .attribute
  | some l => match l.power bandwidth with
    | .error e => .error e
    | .ok p => realize p seed

/-- Seeds drawn by the realizations of the blocks of each antenna, and of the reception. -/
structure Seeds where
  dac : ℕ → ℕ
  up : ℕ → ℕ
  adc : ℕ → ℕ
  down : ℕ → ℕ
  receiver : ℕ

/-- Stream `a` of a signal. -/
def Sig.row (s : Sig) (a : ℕ) : Sig := ⟨1, s.len, fun _ t => s.val a t, s.noisePower⟩

/-- Realizations of a block for every antenna, `rf/chain.py` 392-396. -/
noncomputable def realizeAll (levels : List Level) (bandwidth : ℝ) (i : ℕ) (seeds : ℕ → ℕ) :
    ℕ → Except PyErr (List Realization)
  | 0 => .ok []
  | n + 1 => match realizeAll levels bandwidth i seeds n with
    | .error e => .error e
    | .ok l => match realizeLevel levels bandwidth i (seeds n) with
      | .error e => .error e
      | .ok r => .ok (l ++ [r])

/-- Two blocks in series for every antenna: an ideal mixer only changes carrier frequencies (`mixers.py` 289-302), a converter
without quantization nothing, and each adds its noise (`rf/block.py` 237). -/
noncomputable def chain (z : ℕ → ℕ → ℝ) (x : Sig) (first second : List Realization) : Sig :=
  { x with
    val := fun a t =>
      match first[a]?, second[a]? with
      | some r, some q => (q.addTo z (r.addTo z (x.row a))).val 0 t
      | _, _ => 0
    noisePower := 0 }

/-- A reception: the state's realization of the chain, the realization of the reception, `RFChain.receive`, and
`_generate_receiver_input`, `simulated_device.py` 1750-1784, 1813-1830, 1952-1954.  Every receiver of the device gets this signal,
of the ports it selects. -/
noncomputable def receive (z : ℕ → ℕ → ℝ) (s : List Level × Device) (bandwidth : ℝ) (seeds : Seeds) (x : Sig) : Except PyErr Sig :=
  match realizeAll s.1 bandwidth s.2.adc seeds.adc x.ports with
  | .error e => .error e
  | .ok adc => match realizeAll s.1 bandwidth s.2.down seeds.down x.ports with
    | .error e => .error e
    | .ok down => match realizeLevel s.1 bandwidth s.2.own seeds.receiver with
      | .error e => .error e
      | .ok r => .ok { r.addTo z (chain z x down adc) with noisePower := r.power }

/-- A transmission through the chain, `rf/chain.py` 536-573. -/
noncomputable def transmit (z : ℕ → ℕ → ℝ) (s : List Level × Device) (bandwidth : ℝ) (seeds : Seeds) (x : Sig) : Except PyErr Sig :=
  match realizeAll s.1 bandwidth s.2.dac seeds.dac x.ports with
  | .error e => .error e
  | .ok dac => match realizeAll s.1 bandwidth s.2.up seeds.up x.ports with
    | .error e => .error e
    | .ok up => .ok (chain z x dac up)

/-! ### Samples -/

section

variable {Ω : Type} [MeasurableSpace Ω] {μ : Measure Ω} {z : ℕ → ℕ → Ω → ℝ}

theorem sample_eq (z : ℕ → ℕ → ℝ) (r : Realization) (hr : 0 ≤ r.power) (P N a t : ℕ) :
    r.sample z P N a t = (Real.sqrt r.power : ℂ) * unit z r.seed P N a t := by
  unfold Realization.sample unit
  rw [Real.mul_rpow (by norm_num) hr, show ((r.power : ℝ) ^ (0.5 : ℝ)) = Real.sqrt r.power by
    rw [Real.sqrt_eq_rpow]; norm_num]
  push_cast
  ring

theorem norm_sqrt (p : ℝ) (hp : 0 ≤ p) : ‖(Real.sqrt p : ℂ)‖ ^ 2 = p := by
  rw [Complex.norm_real, Real.norm_of_nonneg (Real.sqrt_nonneg _), Real.sq_sqrt hp]

theorem addTo_val (z : ℕ → ℕ → ℝ) (r : Realization) (hr : 0 ≤ r.power) (s : Sig) (a t : ℕ) :
    (r.addTo z s).val a t = s.val a t + (Real.sqrt r.power : ℂ) * unit z r.seed s.ports s.len a t := by
  unfold Realization.addTo
  split
  · next h => rw [h]; simp
  · dsimp only
    rw [sample_eq z r hr]

theorem addTo_shape (z : ℕ → ℕ → ℝ) (r : Realization) (s : Sig) : (r.addTo z s).ports = s.ports ∧ (r.addTo z s).len = s.len := by
  unfold Realization.addTo
  split <;> exact ⟨rfl, rfl⟩

/-- C99, white noise: the samples added by a realization have the power of the realization, no mean, and are neither correlated
with each other nor with those of realizations with other seeds, nor with their complex conjugates. -/
theorem C99_white [IsProbabilityMeasure μ] (hz : White μ z) (p q : ℝ) (hp : 0 ≤ p) (hq : 0 ≤ q) (seed seed' P P' N N' a a' t t' : ℕ)
    (r r' : Realization) (hr : realize p seed = .ok r) (hr' : realize q seed' = .ok r')
    (ha : a < P) (ht : t < N) (ha' : a' < P') (ht' : t' < N') (hs : seed = seed' → P = P' ∧ N = N' ∧ p = q)
    (x x' : Sig) (hx : x.ports = P ∧ x.len = N) (hx' : x'.ports = P' ∧ x'.len = N') :
    ∫ ω, ((r.addTo (fun s k => z s k ω) x).val a t - x.val a t) ∂μ = 0 ∧
    ∫ ω, ((r.addTo (fun s k => z s k ω) x).val a t - x.val a t) * ((r'.addTo (fun s k => z s k ω) x').val a' t' - x'.val a' t') ∂μ = 0 ∧
    ∫ ω, ((r.addTo (fun s k => z s k ω) x).val a t - x.val a t) * star ((r'.addTo (fun s k => z s k ω) x').val a' t' - x'.val a' t') ∂μ =
      if (seed, a, t) = (seed', a', t') then (p : ℂ) else 0 := by
  unfold realize at hr hr'
  rw [if_neg (not_lt.mpr hp)] at hr
  rw [if_neg (not_lt.mpr hq)] at hr'
  cases hr
  cases hr'
  obtain ⟨rfl, rfl⟩ := hx
  obtain ⟨rfl, rfl⟩ := hx'
  obtain ⟨c1, c2, c3⟩ := unit_corr hz seed seed' _ _ _ _ a a' t t' ha ht ha' ht' (fun h => ⟨(hs h).1, (hs h).2.1⟩)
  simp_rw [fun ω => addTo_val (fun s k => z s k ω) ⟨p, seed⟩ hp x a t,
    fun ω => addTo_val (fun s k => z s k ω) ⟨q, seed'⟩ hq x' a' t', add_sub_cancel_left]
  refine ⟨?_, ?_, ?_⟩
  · rw [integral_const_mul, c1, mul_zero]
  · have : ∀ ω, (Real.sqrt p : ℂ) * unit (fun s k => z s k ω) seed x.ports x.len a t * ((Real.sqrt q : ℂ) * unit (fun s k => z s k ω) seed' x'.ports x'.len a' t') =
        (Real.sqrt p : ℂ) * Real.sqrt q * (unit (fun s k => z s k ω) seed x.ports x.len a t * unit (fun s k => z s k ω) seed' x'.ports x'.len a' t') := by
      intro ω; ring
    simp_rw [this]
    rw [integral_const_mul, c2, mul_zero]
  · have : ∀ ω, (Real.sqrt p : ℂ) * unit (fun s k => z s k ω) seed x.ports x.len a t * star ((Real.sqrt q : ℂ) * unit (fun s k => z s k ω) seed' x'.ports x'.len a' t') =
        (Real.sqrt p : ℂ) * Real.sqrt q * (unit (fun s k => z s k ω) seed x.ports x.len a t * star (unit (fun s k => z s k ω) seed' x'.ports x'.len a' t')) := by
      intro ω
      rw [star_mul', show star (Real.sqrt q : ℂ) = Real.sqrt q from Complex.conj_ofReal _]
      ring
    simp_rw [this]
    rw [integral_const_mul, c3]
    split
    · next h =>
      simp only [Prod.mk.injEq] at h
      obtain ⟨-, -, rfl⟩ := hs h.1
      rw [mul_one, ← Complex.ofReal_mul, Real.mul_self_sqrt hp]
    · rw [mul_zero]

end

example : ∃ r : Realization, realize 2 7 = .ok r := ⟨⟨2, 7⟩, by unfold realize; norm_num⟩


/-! ### Devices -/

/-- The noise level object `i` has the power `p` for the bandwidth. -/
def HasPower (levels : List Level) (bandwidth : ℝ) (i : ℕ) (p : ℝ) : Prop :=
  ∃ l, levels[i]? = some l ∧ l.power bandwidth = .ok p

theorem realizeLevel_ok {levels : List Level} {bandwidth : ℝ} {i : ℕ} {p : ℝ} (h : HasPower levels bandwidth i p) (hp : 0 ≤ p) (seed : ℕ) :
    realizeLevel levels bandwidth i seed = .ok ⟨p, seed⟩ := by
  obtain ⟨l, h1, h2⟩ := h
  unfold realizeLevel
  rw [h1]
  dsimp only
  rw [h2]
  unfold realize
  dsimp only
  rw [if_neg (not_lt.mpr hp)]

theorem realizeAll_ok {levels : List Level} {bandwidth : ℝ} {i : ℕ} {p : ℝ} (h : HasPower levels bandwidth i p) (hp : 0 ≤ p) (seeds : ℕ → ℕ) (n : ℕ) :
    realizeAll levels bandwidth i seeds n = .ok ((List.range n).map fun a => ⟨p, seeds a⟩) := by
  induction n with
  | zero => rfl
  | succ n ih =>
    unfold realizeAll
    rw [ih]
    dsimp only
    rw [realizeLevel_ok h hp]
    simp [List.range_succ]

theorem chain_val (z : ℕ → ℕ → ℝ) (x : Sig) (p q : ℝ) (hp : 0 ≤ p) (hq : 0 ≤ q) (u v : ℕ → ℕ) (a t : ℕ) (ha : a < x.ports) :
    (chain z x ((List.range x.ports).map fun a => ⟨p, u a⟩) ((List.range x.ports).map fun a => ⟨q, v a⟩)).val a t =
      x.val a t + (Real.sqrt p : ℂ) * unit z (u a) 1 x.len 0 t + (Real.sqrt q : ℂ) * unit z (v a) 1 x.len 0 t := by
  unfold chain
  simp only [List.getElem?_map, List.getElem?_range ha, Option.map_some]
  rw [addTo_val _ _ hq, addTo_val _ _ hp, (addTo_shape _ _ _).1, (addTo_shape _ _ _).2]
  rfl

theorem receive_ok (s : List Level × Device) (bandwidth : ℝ) (seeds : Seeds) (x : Sig) {pd pa po : ℝ}
    (hd : HasPower s.1 bandwidth s.2.down pd) (ha : HasPower s.1 bandwidth s.2.adc pa) (ho : HasPower s.1 bandwidth s.2.own po)
    (hpd : 0 ≤ pd) (hpa : 0 ≤ pa) (hpo : 0 ≤ po) (z : ℕ → ℕ → ℝ) :
    ∃ y, receive z s bandwidth seeds x = .ok y ∧ y.ports = x.ports ∧ y.len = x.len ∧ y.noisePower = po ∧
      ∀ a < x.ports, ∀ t, y.val a t = x.val a t + (Real.sqrt pd : ℂ) * unit z (seeds.down a) 1 x.len 0 t +
        (Real.sqrt pa : ℂ) * unit z (seeds.adc a) 1 x.len 0 t + (Real.sqrt po : ℂ) * unit z seeds.receiver x.ports x.len a t := by
  unfold receive
  rw [realizeAll_ok ha hpa, realizeAll_ok hd hpd, realizeLevel_ok ho hpo]
  refine ⟨_, rfl, (addTo_shape _ _ _).1, (addTo_shape _ _ _).2, rfl, fun a h t => ?_⟩
  dsimp only
  rw [addTo_val _ _ hpo, chain_val z x pd pa hpd hpa _ _ a t h]
  rfl

section

variable {Ω : Type} [MeasurableSpace Ω] {μ : Measure Ω} [IsProbabilityMeasure μ] {z : ℕ → ℕ → Ω → ℝ}

/-- The mean energy of three noise samples of different seeds. -/
theorem three (hz : White μ z) {P Q R N : ℕ} (s1 s2 s3 a1 a2 a3 t : ℕ) (ha1 : a1 < P) (ha2 : a2 < Q) (ha3 : a3 < R) (ht : t < N)
    (h12 : s1 ≠ s2) (h13 : s1 ≠ s3) (h23 : s2 ≠ s3) (p1 p2 p3 : ℝ) (h1 : 0 ≤ p1) (h2 : 0 ≤ p2) (h3 : 0 ≤ p3) :
    ∫ ω, ‖(Real.sqrt p1 : ℂ) * unit (fun s k => z s k ω) s1 P N a1 t + (Real.sqrt p2 : ℂ) * unit (fun s k => z s k ω) s2 Q N a2 t +
      (Real.sqrt p3 : ℂ) * unit (fun s k => z s k ω) s3 R N a3 t‖ ^ 2 ∂μ = p1 + p2 + p3 := by
  have := energy_comb (μ := μ) (Finset.univ : Finset (Fin 3))
    (![fun ω => unit (fun s k => z s k ω) s1 P N a1 t, fun ω => unit (fun s k => z s k ω) s2 Q N a2 t,
      fun ω => unit (fun s k => z s k ω) s3 R N a3 t])
    (by intro i _; fin_cases i <;> exact unit_memLp hz _ _ _ _ _)
    (by
      intro i _ j _
      fin_cases i <;> fin_cases j
      all_goals
        simp only [Fin.zero_eta, Fin.mk_one, Fin.reduceFinMk, Matrix.cons_val_zero, Matrix.cons_val_one, Matrix.cons_val]
        refine (unit_corr hz _ _ _ _ _ _ _ _ _ _ (by assumption) ht (by assumption) ht ?_).2.2.trans ?_
        · intro h; first | exact ⟨rfl, rfl⟩ | (exfalso; omega)
        · simp [h12, h13, h23, h12.symm, h13.symm, h23.symm])
    ![(Real.sqrt p1 : ℂ), (Real.sqrt p2 : ℂ), (Real.sqrt p3 : ℂ)]
  simp only [Fin.sum_univ_three, Matrix.cons_val_zero, Matrix.cons_val_one, Matrix.cons_val] at this
  rw [this, norm_sqrt _ h1, norm_sqrt _ h2, norm_sqrt _ h3]

/-- What a device adds to receptions: noise of the mean power `total` at every sample, and what it reports, for any seeds drawn
which differ from each other. -/
def Adds (μ : Measure Ω) (z : ℕ → ℕ → Ω → ℝ) (s : List Level × Device) (bandwidth total reported : ℝ) : Prop :=
  ∀ (seeds : Seeds) (x : Sig), (∀ a, seeds.down a ≠ seeds.adc a ∧ seeds.down a ≠ seeds.receiver ∧ seeds.adc a ≠ seeds.receiver) →
    ∃ y : Ω → Sig, (∀ ω, receive (fun s k => z s k ω) s bandwidth seeds x = .ok (y ω)) ∧
      (∀ ω, (y ω).ports = x.ports ∧ (y ω).len = x.len ∧ (y ω).noisePower = reported) ∧
      ∀ a < x.ports, ∀ t < x.len, ∫ ω, ‖(y ω).val a t - x.val a t‖ ^ 2 ∂μ = total

/-- C99, receptions: the noise power of received samples is the sum of the powers of the noise levels of down-mixer, analog
digital converter and device; the one of the device is reported. -/
theorem C99_reception (hz : White μ z) (s : List Level × Device) (bandwidth : ℝ) {pd pa po : ℝ}
    (hd : HasPower s.1 bandwidth s.2.down pd) (ha : HasPower s.1 bandwidth s.2.adc pa) (ho : HasPower s.1 bandwidth s.2.own po)
    (hpd : 0 ≤ pd) (hpa : 0 ≤ pa) (hpo : 0 ≤ po) : Adds μ z s bandwidth (pd + pa + po) po := by
  intro seeds x hs
  have h := fun ω => receive_ok s bandwidth seeds x hd ha ho hpd hpa hpo (fun s k => z s k ω)
  choose y hy hp hl hn hv using h
  refine ⟨y, hy, fun ω => ⟨hp ω, hl ω, hn ω⟩, fun a h t ht => ?_⟩
  have : ∀ ω, (y ω).val a t - x.val a t = (Real.sqrt pd : ℂ) * unit (fun s k => z s k ω) (seeds.down a) 1 x.len 0 t +
        (Real.sqrt pa : ℂ) * unit (fun s k => z s k ω) (seeds.adc a) 1 x.len 0 t +
        (Real.sqrt po : ℂ) * unit (fun s k => z s k ω) seeds.receiver x.ports x.len a t := by
    intro ω
    rw [hv ω a h t]
    ring
  simp_rw [this]
  exact three hz _ _ _ 0 0 a t one_pos one_pos h ht (hs a).1 (hs a).2.1 (hs a).2.2 pd pa po hpd hpa hpo

/-- C99, transmissions: the noise power of transmitted samples is the sum of the powers of digital analog converter and
up-mixer. -/
theorem C99_transmission (hz : White μ z) (s : List Level × Device) (bandwidth : ℝ) {pd pu : ℝ}
    (hd : HasPower s.1 bandwidth s.2.dac pd) (hu : HasPower s.1 bandwidth s.2.up pu) (hpd : 0 ≤ pd) (hpu : 0 ≤ pu)
    (seeds : Seeds) (x : Sig) (hs : ∀ a, seeds.dac a ≠ seeds.up a) :
    ∃ y : Ω → Sig, (∀ ω, transmit (fun s k => z s k ω) s bandwidth seeds x = .ok (y ω)) ∧
      ∀ a < x.ports, ∀ t < x.len, ∫ ω, ‖(y ω).val a t - x.val a t‖ ^ 2 ∂μ = pd + pu := by
  refine ⟨fun ω => chain (fun s k => z s k ω) x ((List.range x.ports).map fun a => ⟨pd, seeds.dac a⟩)
    ((List.range x.ports).map fun a => ⟨pu, seeds.up a⟩), fun ω => ?_, fun a ha t ht => ?_⟩
  · unfold transmit
    rw [realizeAll_ok hd hpd, realizeAll_ok hu hpu]
  · have h3 := three hz (P := 1) (Q := 1) (R := 1) (seeds.dac a) (seeds.up a) (seeds.dac a + seeds.up a + 1) 0 0 0 t one_pos one_pos one_pos ht
      (hs a) (by omega) (by omega) pd pu 0 hpd hpu le_rfl
    rw [add_zero] at h3
    rw [← h3]
    refine integral_congr_ae (Filter.Eventually.of_forall fun ω => ?_)
    dsimp only
    rw [chain_val _ _ _ _ hpd hpu _ _ a t ha, Real.sqrt_zero]
    congr 2
    push_cast
    ring

end

/-! ### Histories -/

theorem setAt_length (levels : List Level) (i : ℕ) (v : ℝ) : (setAt levels i v).length = levels.length := by
  unfold setAt
  split
  · rfl
  · split
    · rfl
    · rw [List.length_set]

theorem setAt_ne (levels : List Level) (i j : ℕ) (v : ℝ) (h : i ≠ j) : (setAt levels i v)[j]? = levels[j]? := by
  unfold setAt
  split
  · rfl
  · split
    · rfl
    · rw [List.getElem?_set_ne h]

theorem run_blocks (ops : List Op) (s : List Level × Device) :
    (ops.foldl Op.run s).2.adc = s.2.adc ∧ (ops.foldl Op.run s).2.down = s.2.down ∧
      (ops.foldl Op.run s).2.dac = s.2.dac ∧ (ops.foldl Op.run s).2.up = s.2.up := by
  induction ops generalizing s with
  | nil => exact ⟨rfl, rfl, rfl, rfl⟩
  | cons op ops ih =>
    rw [List.foldl_cons]
    obtain ⟨h1, h2, h3, h4⟩ := ih (op.run s)
    rw [h1, h2, h3, h4]
    cases op with
    | assign i =>
      unfold Op.run
      dsimp only
      split <;> exact ⟨rfl, rfl, rfl, rfl⟩
    | _ => exact ⟨rfl, rfl, rfl, rfl⟩

/-- The object given to the constructor, or made by it. -/
def first (levels : List Level) : Option ℕ → ℕ
  | none => levels.length
  | some l => l

theorem construct_ids (levels : List Level) (l : Option ℕ) :
    (construct levels l).2 = ⟨first levels l, first levels l, first levels l, first levels l, first levels l⟩ := by
  cases l <;> rfl

section

variable {Ω : Type} [MeasurableSpace Ω] {μ : Measure Ω} [IsProbabilityMeasure μ] {z : ℕ → ℕ → Ω → ℝ}

/-- C99, histories: whatever is done to a device and to noise levels after construction, receptions carry twice the present power
of the noise level object the device was constructed with, besides the one of the device's present noise level. -/
theorem C99_history (hz : White μ z) (levels : List Level) (l : Option ℕ) (ops : List Op) (bandwidth : ℝ) {pb po : ℝ}
    (hb : HasPower (ops.foldl Op.run (construct levels l)).1 bandwidth (first levels l) pb)
    (ho : HasPower (ops.foldl Op.run (construct levels l)).1 bandwidth (ops.foldl Op.run (construct levels l)).2.own po)
    (hpb : 0 ≤ pb) (hpo : 0 ≤ po) :
    Adds μ z (ops.foldl Op.run (construct levels l)) bandwidth (2 * pb + po) po := by
  obtain ⟨h1, h2, -, -⟩ := run_blocks ops (construct levels l)
  rw [construct_ids] at h1 h2
  rw [two_mul]
  refine C99_reception hz _ bandwidth ?_ ?_ ho hpb hpb hpo
  · rw [h2]; exact hb
  · rw [h1]; exact hb

/-- C99 fails: a device constructed with a noise level adds three times its power to receptions, and reports it once; so it does
after any changes of the value of the level. -/
theorem C99_shared_fails (hz : White μ z) (levels : List Level) (l : ℕ) (ops : List Op) (hops : ∀ op ∈ ops, ∀ i, op ≠ .assign i)
    (bandwidth p : ℝ) (h : HasPower (ops.foldl Op.run (construct levels (some l))).1 bandwidth l p) (hp : 0 < p) :
    Adds μ z (ops.foldl Op.run (construct levels (some l))) bandwidth (3 * p) p ∧ 3 * p ≠ p := by
  have hown : ∀ (ops : List Op) (s : List Level × Device), (∀ op ∈ ops, ∀ i, op ≠ .assign i) → (ops.foldl Op.run s).2.own = s.2.own := by
    intro ops
    induction ops with
    | nil => intro s _; rfl
    | cons op ops ih =>
      intro s hs
      rw [List.foldl_cons, ih _ fun op' h' => hs op' (List.mem_cons_of_mem _ h')]
      cases op with
      | assign i => exact absurd rfl (hs _ List.mem_cons_self i)
      | _ => rfl
  refine ⟨?_, by linarith⟩
  have := C99_history hz levels (some l) ops bandwidth h (by rw [hown _ _ hops]; exact h) hp.le hp.le
  rw [show 3 * p = 2 * p + p by ring]
  exact this

/-- C99 fails: such a device also adds noise to transmissions, of twice the power of the level, although the noise level is
declared to take effect when receiving (`first_impact="receive_devices"`, line 1350). -/
theorem C99_transmit_fails (hz : White μ z) (levels : List Level) (l : ℕ) (bandwidth p : ℝ) (h : HasPower levels bandwidth l p) (hp : 0 < p)
    (seeds : Seeds) (x : Sig) (hs : ∀ a, seeds.dac a ≠ seeds.up a) :
    ∃ y : Ω → Sig, (∀ ω, transmit (fun s k => z s k ω) (construct levels (some l)) bandwidth seeds x = .ok (y ω)) ∧
      ∀ a < x.ports, ∀ t < x.len, ∫ ω, ‖(y ω).val a t - x.val a t‖ ^ 2 ∂μ = 2 * p := by
  rw [two_mul]
  exact C99_transmission hz (construct levels (some l)) bandwidth h h hp.le hp.le seeds x hs

/-- Operations leaving the object `d` alone. -/
def Op.spares (d : ℕ) : Op → Prop
  | .create _ => True
  | .assign i => i ≠ d
  | .noise _ => True
  | .set i _ => i ≠ d

theorem spared (d : ℕ) (L : Level) (ops : List Op) (s : List Level × Device) (hops : ∀ op ∈ ops, op.spares d) (hd : s.1[d]? = some L)
    (ho : s.2.own ≠ d) : (ops.foldl Op.run s).1[d]? = some L ∧ (ops.foldl Op.run s).2.own ≠ d := by
  induction ops generalizing s with
  | nil => exact ⟨hd, ho⟩
  | cons op ops ih =>
    rw [List.foldl_cons]
    have hsp := hops op List.mem_cons_self
    refine ih (op.run s) (fun op' h' => hops op' (List.mem_cons_of_mem _ h')) ?_ ?_
    · cases op with
      | create l =>
        have hlt : d < s.1.length := by
          by_contra hc
          rw [List.getElem?_eq_none (by omega)] at hd
          cases hd
        show (s.1 ++ [l])[d]? = _
        rw [List.getElem?_append_left hlt]
        exact hd
      | assign i =>
        unfold Op.run
        dsimp only
        split <;> exact hd
      | noise v => exact (setAt_ne _ _ _ _ ho).trans hd
      | set i v => exact (setAt_ne _ _ _ _ hsp).trans hd
    · cases op with
      | assign i =>
        unfold Op.run
        dsimp only
        split
        · exact hsp
        · exact ho
      | _ => exact ho

/-- C99, assigned levels: a device constructed without noise level, which is assigned another one afterwards, adds to receptions
exactly the power of its noise level, and reports it, whatever is done to it unless it is given its first noise level again. -/
theorem C99_assigned_partial (hz : White μ z) (levels : List Level) (created : List Level) (i : ℕ)
    (hi : i < levels.length + 1 + created.length) (hne : i ≠ levels.length) (ops : List Op) (hops : ∀ op ∈ ops, op.spares levels.length)
    (bandwidth p : ℝ) (hp : 0 ≤ p) (s : List Level × Device)
    (hs : s = ops.foldl Op.run (Op.run ((created.map Op.create).foldl Op.run (construct levels none)) (.assign i)))
    (h : HasPower s.1 bandwidth s.2.own p) : Adds μ z s bandwidth p p := by
  have hcr : ∀ (created : List Level) (s : List Level × Device), (created.map Op.create).foldl Op.run s = (s.1 ++ created, s.2) := by
    intro created
    induction created with
    | nil => intro s; simp
    | cons c cs ih =>
      intro s
      rw [List.map_cons, List.foldl_cons, ih]
      simp [Op.run]
  set s0 := Op.run ((created.map Op.create).foldl Op.run (construct levels none)) (.assign i) with hs0
  have e0 : s0 = ((levels ++ [.n0 0]) ++ created, ⟨i, levels.length, levels.length, levels.length, levels.length⟩) := by
    rw [hs0, hcr]
    unfold Op.run construct
    dsimp only
    rw [if_pos (by simp; omega)]
  obtain ⟨h1, h2⟩ := spared levels.length (.n0 0) ops s0 hops (by rw [e0]; simp) (by rw [e0]; exact hne)
  rw [← hs] at h1 h2
  obtain ⟨b1, b2, -, -⟩ := run_blocks ops s0
  rw [← hs, e0] at b1 b2
  have hz0 : HasPower s.1 bandwidth levels.length 0 := ⟨_, h1, by simp [Level.power]⟩
  have := C99_reception hz s bandwidth (by rw [b2]; exact hz0) (by rw [b1]; exact hz0) h le_rfl le_rfl hp
  rwa [add_zero, zero_add] at this

/-- C99, signal to noise ratios: a device constructed without noise level and then assigned `SNR(ratio, reference)` receives a signal
of the reference's power, scaled by the channel, at the ratio configured. -/
theorem C99_snr_partial (hz : White μ z) (levels : List Level) (ratio power scale bandwidth : ℝ) (hr : 0 < ratio) (hp : 0 < power)
    (hc : 0 < scale) :
    ∃ noise, 0 < noise ∧ power * scale / noise = ratio ∧
      Adds μ z ([Op.create (.snr ratio power scale), .assign (levels.length + 1)].foldl Op.run (construct levels none)) bandwidth noise noise := by
  refine ⟨power / ratio * scale, mul_pos (div_pos hp hr) hc, by field_simp, ?_⟩
  refine C99_assigned_partial hz levels [.snr ratio power scale] (levels.length + 1) (by simp) (by omega) [] (by simp) bandwidth _
    (mul_pos (div_pos hp hr) hc).le _ rfl ⟨.snr ratio power scale, ?_, rfl⟩
  simp [Op.run, construct]

/-- C99 fails: if the first noise level was changed before it is replaced, its power keeps being added twice. -/
theorem C99_leftover_fails (hz : White μ z) (levels : List Level) (v : ℝ) (hv : 0 < v) (L : Level) (bandwidth p : ℝ) (hb : 0 < bandwidth)
    (hp : 0 ≤ p) (hL : L.power bandwidth = .ok p) :
    Adds μ z ([Op.noise v, .create L, .assign (levels.length + 1)].foldl Op.run (construct levels none)) bandwidth (2 * (v * bandwidth) + p) p ∧
      2 * (v * bandwidth) + p ≠ p := by
  have e : [Op.noise v, .create L, .assign (levels.length + 1)].foldl Op.run (construct levels none) =
      (levels ++ [.n0 v, L], ⟨levels.length + 1, levels.length, levels.length, levels.length, levels.length⟩) := by
    have : setAt (levels ++ [.n0 0]) levels.length v = levels ++ [.n0 v] := by
      unfold setAt
      simp [Level.set, not_lt.mpr hv.le]
    simp [Op.run, construct, this]
  have hpos : 0 < v * bandwidth := mul_pos hv hb
  refine ⟨?_, by linarith⟩
  refine C99_history hz levels none _ bandwidth ?_ ?_ hpos.le hp
  · rw [e]
    exact ⟨.n0 v, by simp [first], rfl⟩
  · rw [e]
    exact ⟨L, by simp, hL⟩

/-- C99 fails: the power of `N0(power)`, documented to be in Watt, is multiplied by the bandwidth. -/
theorem C99_n0_fails (hz : White μ z) (levels : List Level) (power bandwidth : ℝ) (hp : 0 < power) (hb : 0 < bandwidth) (h1 : bandwidth ≠ 1) :
    Adds μ z ([Op.create (.n0 power), .assign (levels.length + 1)].foldl Op.run (construct levels none)) bandwidth
      (power * bandwidth) (power * bandwidth) ∧ power * bandwidth ≠ power := by
  refine ⟨C99_assigned_partial hz levels [.n0 power] (levels.length + 1) (by simp) (by omega) [] (by simp) bandwidth _
    (mul_pos hp hb).le _ rfl ?_, ?_⟩
  · refine ⟨.n0 power, ?_, rfl⟩
    simp [Op.run, construct]
  · intro h
    exact h1 (mul_left_cancel₀ hp.ne' (h.trans (mul_one _).symm))

end

example : HasPower [Level.n0 2] 3 0 6 := ⟨_, rfl, by norm_num [Level.power]⟩

/-- With Gaussian numbers, a device constructed with `N0(2)` and a bandwidth of 3 adds a power of 18, and reports 6. -/
example : Adds (Measure.infinitePi fun _ : ℕ × ℕ => gaussianReal 0 1) (fun s k ω => ω (s, k)) (construct [.n0 2] (some 0)) 3 18 6 := by
  have h : HasPower [Level.n0 2] 3 0 6 := ⟨_, rfl, by norm_num [Level.power]⟩
  have := C99_reception white_gaussian (construct [.n0 2] (some 0)) 3 h h h (by norm_num) (by norm_num) (by norm_num)
  norm_num at this
  exact this

/-! ### Levels -/

/-- Levels as their setters and references leave them. -/
def Level.Valid : Level → Prop
  | .thermal t => 0 ≤ t
  | .n0 p => 0 ≤ p
  | .snr r p c => 0 < r ∧ 0 ≤ p ∧ 0 ≤ c
  | .ebn0 l r | .esn0 l r => (∀ v, l = some v → 0 < v) ∧ ∀ w, r = some w → ∀ b os, 0 ≤ w.symbolEnergy b os

theorem set_valid (l l' : Level) (v : ℝ) (h : l.Valid) (hs : l.set v = .ok l') : l'.Valid := by
  cases l <;> simp only [Level.set] at hs <;> split at hs <;> cases hs <;> simp only [Level.Valid] at h ⊢
  · linarith
  · linarith
  · exact ⟨by linarith, h.2⟩
  · exact ⟨fun v' hv => by cases hv; linarith, h.2⟩
  · exact ⟨fun v' hv => by cases hv; linarith, h.2⟩

theorem over_nonneg (x : ℝ) (hx : 0 ≤ x) (l : Option ℝ) (h : ∀ v, l = some v → 0 < v) : 0 ≤ over x l := by
  cases l with
  | none => exact le_rfl
  | some v => exact div_nonneg hx (h v rfl).le

theorem power_valid (l : Level) (h : l.Valid) (bandwidth : ℝ) (hb : 0 ≤ bandwidth) :
    (∃ p, 0 ≤ p ∧ l.power bandwidth = .ok p) ∨ (∃ v, l = .ebn0 v none ∧ l.power bandwidth = .error .runtime) ∨
      (∃ v, l = .esn0 v none ∧ l.power bandwidth = .error .runtime) ∨
      ∃ v w, l = .ebn0 v (some w) ∧ w.bits = 0 ∧ l.power bandwidth = .error .zeroDivision := by
  have hk : 0 ≤ boltzmann := by unfold boltzmann; norm_num
  cases l with
  | thermal t => exact .inl ⟨_, mul_nonneg (mul_nonneg (mul_nonneg (by norm_num) hk) h) hb, rfl⟩
  | n0 p => exact .inl ⟨_, mul_nonneg h hb, rfl⟩
  | snr r p c => exact .inl ⟨_, mul_nonneg (div_nonneg h.2.1 h.1.le) h.2.2, rfl⟩
  | ebn0 v r =>
    cases r with
    | none => exact .inr (.inl ⟨v, rfl, rfl⟩)
    | some w =>
      by_cases hbits : w.bits = 0
      · exact .inr (.inr (.inr ⟨v, w, rfl, hbits, by simp [Level.power, hbits]⟩))
      · exact .inl ⟨_, over_nonneg _ (div_nonneg (h.2 w rfl bandwidth 1) (Nat.cast_nonneg w.bits)) v h.1, by simp [Level.power, hbits]⟩
  | esn0 v r =>
    cases r with
    | none => exact .inr (.inr (.inl ⟨v, rfl, rfl⟩))
    | some w => exact .inl ⟨_, over_nonneg _ (h.2 w rfl _ _) v h.1, rfl⟩

/-- C99, valid levels: whatever values the levels of a device are set to, accepted or refused, all noise levels have a power,
which is not negative, unless they refer to a modem without waveform or to symbols without bits. -/
theorem C99_valid (levels : List Level) (hl : ∀ l ∈ levels, l.Valid) (l : Option ℕ) (ops : List Op)
    (hops : ∀ c, Op.create c ∈ ops → c.Valid) (bandwidth : ℝ) (hb : 0 ≤ bandwidth) :
    ∀ c ∈ (ops.foldl Op.run (construct levels l)).1,
      (∃ p, 0 ≤ p ∧ c.power bandwidth = .ok p) ∨ (∃ v, c = .ebn0 v none ∧ c.power bandwidth = .error .runtime) ∨
      (∃ v, c = .esn0 v none ∧ c.power bandwidth = .error .runtime) ∨
      ∃ v w, c = .ebn0 v (some w) ∧ w.bits = 0 ∧ c.power bandwidth = .error .zeroDivision := by
  have hset : ∀ (ls : List Level) (i : ℕ) (v : ℝ), (∀ l ∈ ls, l.Valid) → ∀ l ∈ setAt ls i v, l.Valid := by
    intro ls i v h
    unfold setAt
    split
    · exact h
    · next l0 hl0 =>
      split
      · exact h
      · next l1 hl1 =>
        intro l hm
        rcases List.mem_or_eq_of_mem_set hm with hm | rfl
        · exact h l hm
        · exact set_valid l0 _ v (h l0 (List.mem_of_getElem? hl0)) hl1
  have key : ∀ (ops : List Op) (s : List Level × Device), (∀ c, Op.create c ∈ ops → c.Valid) → (∀ l ∈ s.1, l.Valid) →
      ∀ l ∈ (ops.foldl Op.run s).1, l.Valid := by
    intro ops
    induction ops with
    | nil => intro s _ h; exact h
    | cons op ops ih =>
      intro s ho h
      rw [List.foldl_cons]
      refine ih (op.run s) (fun c hc => ho c (List.mem_cons_of_mem _ hc)) ?_
      cases op with
      | create c =>
        intro l hm
        rcases List.mem_append.mp hm with hm | hm
        · exact h l hm
        · rw [List.mem_singleton] at hm
          subst hm
          exact ho _ List.mem_cons_self
      | assign i =>
        unfold Op.run
        dsimp only
        split <;> exact h
      | noise v => exact hset _ _ _ h
      | set i v => exact hset _ _ _ h
  intro l' hm
  refine power_valid l' (key ops _ hops ?_ l' hm) bandwidth hb
  cases l with
  | none =>
    intro l hm
    rcases List.mem_append.mp hm with hm | hm
    · exact hl l hm
    · rw [List.mem_singleton] at hm
      subst hm
      exact le_rfl
  | some i => exact hl

/-! ### Decisions -/

open SingleCarrier in
/-- Demodulated symbols are filtered samples. -/
theorem demodulate_eq (w : SingleCarrier.Waveform ℂ) (p : Pulse ℂ) (hs : 0 < p.step) (signal : List ℂ) (h0 : 0 < signal.length)
    (hr : 0 < p.rx.length) (hl : p.delay + w.size * p.step < signal.length + p.rx.length - 1 + p.step) :
    w.demodulate p signal = .ok ((List.range w.size).map fun (k : ℕ) => convAt signal p.rx ((p.delay + k * p.step : ℕ) : ℤ)) := by
  unfold Waveform.demodulate convolve
  rw [if_neg (by omega)]
  dsimp only
  rw [stride_ok _ _ _ _ hs (by simpa using hl)]
  congr 1
  refine List.map_congr_left fun k hk => ?_
  rw [List.mem_range] at hk
  rcases Nat.lt_or_ge (p.delay + k * p.step) (signal.length + p.rx.length - 1) with h | h
  · exact at0_map_range (fun (n : ℕ) => convAt signal p.rx n) _ _ h
  · rw [at0_ge _ _ (by simp; omega), convAt_high _ _ h0 _ h]

/-- Row `a` of a signal. -/
def Sig.samples (s : Sig) (a : ℕ) : List ℂ := (List.range s.len).map (s.val a)

open SingleCarrier in
theorem convAt_samples (s : Sig) (a : ℕ) (rx : List ℂ) (m : ℤ) :
    convAt (s.samples a) rx m = ∑ i ∈ Finset.range s.len, s.val a i * at0 rx (m - i) := by
  unfold convAt Sig.samples
  rw [List.length_map, List.length_range]
  refine Finset.sum_congr rfl fun i hi => ?_
  rw [Finset.mem_range] at hi
  rw [at0_map_range _ _ _ hi]

open SingleCarrier in
/-- Energies of reversed filters. -/
theorem sum_reversed (rx : List ℂ) (m n : ℕ) (h1 : rx.length ≤ m + 1) (h2 : m < n) :
    ∑ i ∈ Finset.range n, ‖at0 rx ((m : ℤ) - i)‖ ^ 2 = ∑ j ∈ Finset.range rx.length, ‖at0 rx j‖ ^ 2 := by
  have e1 : ∑ i ∈ Finset.range n, ‖at0 rx ((m : ℤ) - i)‖ ^ 2 = ∑ i ∈ Finset.range (m + 1), ‖at0 rx ((m : ℤ) - i)‖ ^ 2 := by
    symm
    apply Finset.sum_subset
    · intro i hi
      rw [Finset.mem_range] at hi ⊢
      omega
    · intro i _ hi
      rw [Finset.mem_range] at hi
      rw [at0_neg _ _ (by omega)]
      simp
  rw [e1, ← Finset.sum_range_reflect]
  have e2 : ∑ j ∈ Finset.range (m + 1), ‖at0 rx ((m : ℤ) - ((m + 1 - 1 - j : ℕ) : ℤ))‖ ^ 2 = ∑ j ∈ Finset.range (m + 1), ‖at0 rx j‖ ^ 2 := by
    refine Finset.sum_congr rfl fun j hj => ?_
    rw [Finset.mem_range] at hj
    congr 3
    omega
  rw [e2]
  symm
  apply Finset.sum_subset
  · intro i hi
    rw [Finset.mem_range] at hi ⊢
    omega
  · intro i _ hi
    rw [Finset.mem_range] at hi
    rw [at0_ge _ _ (by omega)]
    simp

section

open SingleCarrier

variable {Ω : Type} [MeasurableSpace Ω] {μ : Measure Ω} [IsProbabilityMeasure μ] {z : ℕ → ℕ → Ω → ℝ}

/-- C99, decisions: a device without noise in its chain, whose noise level has the power `p`, adds to each demodulated symbol
noise of the power `p` times the energy of the receive filter. -/
theorem C99_decision (hz : White μ z) (s : List Level × Device) (bandwidth p : ℝ) (hd : HasPower s.1 bandwidth s.2.down 0)
    (ha : HasPower s.1 bandwidth s.2.adc 0) (ho : HasPower s.1 bandwidth s.2.own p) (hp : 0 ≤ p) (seeds : Seeds) (x : Sig)
    (w : SingleCarrier.Waveform ℂ) (q : Pulse ℂ) (hs : 0 < q.step) (h0 : 0 < x.len) (hr : 0 < q.rx.length)
    (hl : q.delay + w.size * q.step < x.len + q.rx.length - 1 + q.step) (a : ℕ) (hax : a < x.ports) :
    ∃ (y : Ω → Sig) (clean : List ℂ) (out : Ω → List ℂ), (∀ ω, receive (fun s k => z s k ω) s bandwidth seeds x = .ok (y ω)) ∧
      w.demodulate q (x.samples a) = .ok clean ∧ (∀ ω, w.demodulate q ((y ω).samples a) = .ok (out ω)) ∧
      ∀ k < w.size, ∫ ω, ‖(out ω).getD k 0 - clean.getD k 0‖ ^ 2 ∂μ =
        p * ∑ i ∈ Finset.range x.len, ‖at0 q.rx (((q.delay + k * q.step : ℕ) : ℤ) - i)‖ ^ 2 := by
  have h := fun ω => receive_ok s bandwidth seeds x hd ha ho le_rfl le_rfl hp (fun s k => z s k ω)
  choose y hy hyp hyl hyn hv using h
  have hlen : ∀ ω, ((y ω).samples a).length = x.len := fun ω => by simp [Sig.samples, hyl ω]
  have hlenx : (x.samples a).length = x.len := by simp [Sig.samples]
  refine ⟨y, _, fun ω => (List.range w.size).map fun (k : ℕ) => convAt ((y ω).samples a) q.rx ((q.delay + k * q.step : ℕ) : ℤ), hy,
    demodulate_eq w q hs _ (by omega) hr (by rw [hlenx]; exact hl),
    fun ω => demodulate_eq w q hs _ (by rw [hlen]; omega) hr (by rw [hlen]; exact hl), fun k hk => ?_⟩
  have hg : ∀ f : ℕ → ℂ, ((List.range w.size).map f).getD k 0 = f k := by
    intro f
    rw [List.getD_eq_getElem?_getD, List.getElem?_map, List.getElem?_range hk]
    rfl
  simp only [hg]
  have hdiff : ∀ ω, convAt ((y ω).samples a) q.rx ((q.delay + k * q.step : ℕ) : ℤ) - convAt (x.samples a) q.rx ((q.delay + k * q.step : ℕ) : ℤ) =
      ∑ i ∈ Finset.range x.len, ((Real.sqrt p : ℂ) * at0 q.rx (((q.delay + k * q.step : ℕ) : ℤ) - i)) *
        unit (fun s k => z s k ω) seeds.receiver x.ports x.len a i := by
    intro ω
    rw [convAt_samples, convAt_samples, hyl ω, ← Finset.sum_sub_distrib]
    refine Finset.sum_congr rfl fun i _ => ?_
    rw [hv ω a hax i, Real.sqrt_zero]
    push_cast
    ring
  simp_rw [hdiff]
  rw [energy_comb (μ := μ) (Finset.range x.len) (fun i ω => unit (fun s k => z s k ω) seeds.receiver x.ports x.len a i)
    (fun i _ => unit_memLp hz _ _ _ _ _) (fun i hi j hj => ?_)
    (fun (i : ℕ) => (Real.sqrt p : ℂ) * at0 q.rx (((q.delay + k * q.step : ℕ) : ℤ) - i)), Finset.mul_sum]
  · refine Finset.sum_congr rfl fun i _ => ?_
    rw [norm_mul, mul_pow, norm_sqrt p hp]
  · rw [Finset.mem_range] at hi hj
    rw [(unit_corr hz seeds.receiver seeds.receiver x.ports x.ports x.len x.len a a i j hax hi hax hj (fun _ => ⟨rfl, rfl⟩)).2.2]
    simp

/-- Single carrier pulses as long as a symbol, and the symbol energy of their waveforms, `waveform_single_carrier.py` 869-870 and
939-940. -/
def Short (os : ℕ) (p : Pulse ℂ) (energy : ℕ → ℝ) : Prop :=
  (p = rectangular os ∧ ∀ q : ℕ, energy q = (q : ℝ)) ∨
    ∃ perChirp : ℕ, 0 < perChirp ∧ p = frequencyModulated perChirp os ∧ ∀ q : ℕ, energy q = ((perChirp * q : ℕ) : ℝ)

theorem short_facts (os : ℕ) (hos : 0 < os) (p : Pulse ℂ) (energy : ℕ → ℝ) (hp : Short os p energy) :
    0 < p.step ∧ p.rx.length = p.step ∧ p.delay = p.step - 1 ∧ 0 < energy 1 ∧ (p.step : ℝ) = os * energy 1 ∧
      ∑ j ∈ Finset.range p.rx.length, ‖at0 p.rx j‖ ^ 2 = 1 / p.step ∧
      ∀ (w : SingleCarrier.Waveform ℂ) (s : List ℂ), 0 < w.size → s.length = w.size →
        ∃ y, w.modulate p s = .ok y ∧ y.length = w.size * p.step ∧ w.demodulate p y = .ok s := by
  have hnorm : ∀ (l : List ℂ) (n : ℕ), 0 < n → l.length = n → (∀ x ∈ l, ‖x‖ = 1 / (n : ℝ)) →
      ∑ j ∈ Finset.range l.length, ‖at0 l j‖ ^ 2 = 1 / (n : ℝ) := by
    intro l n hn hl hx
    have h0 : (n : ℝ) ≠ 0 := by exact_mod_cast hn.ne'
    rw [Finset.sum_congr rfl (g := fun _ => (1 / (n : ℝ)) ^ 2)]
    · rw [Finset.sum_const, Finset.card_range, hl, nsmul_eq_mul]
      field_simp
    · intro j hj
      rw [Finset.mem_range] at hj
      rw [at0_nat, List.getD_eq_getElem?_getD, List.getElem?_eq_getElem hj]
      simp only [Option.getD_some]
      rw [hx _ (List.getElem_mem hj)]
  rcases hp with ⟨rfl, he⟩ | ⟨n, hn, rfl, he⟩
  · refine ⟨hos, by simp [rectangular], rfl, by rw [he]; norm_num, by rw [he]; simp [rectangular], ?_, ?_⟩
    · refine hnorm _ os hos (by simp [rectangular]) fun x hx => ?_
      simp only [rectangular, List.map_replicate] at hx
      rw [List.eq_of_mem_replicate hx]
      simp
    · intro w s hw hl
      obtain ⟨y, h1, h2, h3⟩ := C92_rectangular w os hos hw s hl 1
      refine ⟨y, h1, ?_, by simpa using h3⟩
      rw [h2]
      simp [List.length_flatMap, hl, rectangular]
  · have hpos : 0 < os * n := Nat.mul_pos hos hn
    have hlen : (chirp n os).length = os * n := by simp [chirp, Nat.mul_comm]
    refine ⟨hpos, by simp [frequencyModulated, hlen], rfl, by rw [he]; simpa using hn, by rw [he]; simp [frequencyModulated], ?_, ?_⟩
    · refine hnorm _ (os * n) hpos (by simp [frequencyModulated, hlen]) fun x hx => ?_
      simp only [frequencyModulated, List.mem_map, List.mem_reverse, chirp, List.mem_range] at hx
      obtain ⟨_, ⟨_, ⟨t, -, rfl⟩, rfl⟩, rfl⟩ := hx
      rw [norm_div, RCLike.norm_conj, show Complex.I * Real.pi * (-1 / os * t + 1 / ((os : ℂ) ^ 2 * n) * (t : ℂ) ^ 2) =
        Complex.I * ((Real.pi * (-1 / os * t + 1 / ((os : ℝ) ^ 2 * n) * (t : ℝ) ^ 2) : ℝ) : ℂ) by push_cast; ring, mul_comm Complex.I,
        Complex.norm_exp_ofReal_mul_I]
      simp
    · intro w s hw hl
      obtain ⟨y, h1, h2, h3, -⟩ := C92_chirps w n os hn hos hw s hl 1
      refine ⟨y, h1, ?_, by simpa using h3⟩
      have : (y.length : ℤ) = ((w.size * (os * n) : ℕ) : ℤ) := by
        rw [h2]
        unfold Waveform.chirpSamplesPerFrame
        push_cast
        ring
      exact_mod_cast this

/-- Decisions about symbols of rectangular pulses or chirps received by a device with the noise power `energy(1) / ratio`. -/
theorem decide_short (hz : White μ z) (s : List Level × Device) (bandwidth : ℝ) (hd : HasPower s.1 bandwidth s.2.down 0)
    (ha : HasPower s.1 bandwidth s.2.adc 0) (os : ℕ) (hos : 0 < os) (q : Pulse ℂ) (energy : ℕ → ℝ) (hq : Short os q energy)
    (ratio : ℝ) (hr : 0 < ratio) (ho : HasPower s.1 bandwidth s.2.own (energy 1 / ratio)) (seeds : Seeds)
    (w : SingleCarrier.Waveform ℂ) (hw : 0 < w.size) (symbols : List ℂ) (hl : symbols.length = w.size) :
    ∃ (x : List ℂ) (y : Ω → Sig) (out : Ω → List ℂ), w.modulate q symbols = .ok x ∧
      (∀ ω, receive (fun s k => z s k ω) s bandwidth seeds ⟨1, x.length, fun _ t => x.getD t 0, 0⟩ = .ok (y ω)) ∧
      (∀ ω, w.demodulate q ((y ω).samples 0) = .ok (out ω)) ∧
      ∀ k < w.size, ∫ ω, ‖(out ω).getD k 0 - symbols.getD k 0‖ ^ 2 ∂μ = 1 / (os * ratio) := by
  obtain ⟨h1, h2, h3, h4, h5, h6, h7⟩ := short_facts os hos q energy hq
  obtain ⟨x, hx, hxl, hxd⟩ := h7 w symbols hw hl
  obtain ⟨m, hm⟩ : ∃ m, w.size = m + 1 := ⟨w.size - 1, by omega⟩
  have e : w.size * q.step = m * q.step + q.step := by rw [hm]; ring
  obtain ⟨y, clean, out, c1, c2, c3, c4⟩ := C99_decision hz s bandwidth (energy 1 / ratio) hd ha ho (div_pos h4 hr).le seeds
    ⟨1, x.length, fun _ t => x.getD t 0, 0⟩ w q h1 (by dsimp only; rw [hxl]; exact Nat.mul_pos hw h1) (by omega)
    (by dsimp only; rw [hxl, h2, h3]; omega) 0 one_pos
  have hsame : (Sig.samples ⟨1, x.length, fun _ t => x.getD t 0, 0⟩ 0) = x := by
    unfold Sig.samples
    apply List.ext_getElem?
    intro i
    rw [List.getElem?_map]
    rcases Nat.lt_or_ge i x.length with hi | hi
    · rw [List.getElem?_range hi]
      simp [hi]
    · rw [List.getElem?_eq_none (by simpa using hi), List.getElem?_eq_none hi]
      rfl
  rw [hsame, hxd] at c2
  cases c2
  refine ⟨x, y, out, hx, c1, c3, fun k hk => ?_⟩
  rw [c4 k hk, sum_reversed, h6, h5]
  · have h0 : (os : ℝ) ≠ 0 := by exact_mod_cast hos.ne'
    have := hr.ne'
    have := h4.ne'
    field_simp
  · rw [h2, h3]
    omega
  · dsimp only
    rw [hxl, h3, e]
    have : k * q.step ≤ m * q.step := Nat.mul_le_mul_right _ (by omega)
    omega

/-- C99, symbol energies: with `ESN0(waveform, ratio)`, `EBN0(waveform, ratio)` and an oversampling factor of one, symbols of
rectangular pulses and chirps of unit energy are demodulated at the signal to noise ratio configured: per symbol, or per bit. -/
theorem C99_ratio_partial (hz : White μ z) (s : List Level × Device) (bandwidth : ℝ) (hd : HasPower s.1 bandwidth s.2.down 0)
    (ha : HasPower s.1 bandwidth s.2.adc 0) (q : Pulse ℂ) (energy : ℕ → ℝ) (hq : Short 1 q energy) (ratio : ℝ) (hr : 0 < ratio)
    (bits : ℕ) (hbits : 0 < bits) (perBit : Bool)
    (ho : s.1[s.2.own]? = some (if perBit then .ebn0 (some ratio) (some ⟨fun _ q => energy q, bits⟩)
      else .esn0 (some ratio) (some ⟨fun _ q => energy q, bits⟩))) (seeds : Seeds)
    (w : SingleCarrier.Waveform ℂ) (hw : 0 < w.size) (symbols : List ℂ) (hl : symbols.length = w.size) :
    ∃ (x : List ℂ) (y : Ω → Sig) (out : Ω → List ℂ), w.modulate q symbols = .ok x ∧
      (∀ ω, receive (fun s k => z s k ω) s bandwidth seeds ⟨1, x.length, fun _ t => x.getD t 0, 0⟩ = .ok (y ω)) ∧
      (∀ ω, w.demodulate q ((y ω).samples 0) = .ok (out ω)) ∧
      ∀ k < w.size, 1 / ∫ ω, ‖(out ω).getD k 0 - symbols.getD k 0‖ ^ 2 ∂μ = if perBit then bits * ratio else ratio := by
  have hb : (0 : ℝ) < bits := by exact_mod_cast hbits
  obtain ⟨x, y, out, h1, h2, h3, h4⟩ := decide_short hz s bandwidth hd ha 1 one_pos q energy hq
    (if perBit then bits * ratio else ratio) (by split; exacts [mul_pos hb hr, hr]) (by
      refine ⟨_, ho, ?_⟩
      cases perBit
      · rfl
      · simp only [if_true, Level.power, over]
        rw [if_neg hbits.ne', div_div]) seeds w hw symbols hl
  refine ⟨x, y, out, h1, h2, h3, fun k hk => ?_⟩
  rw [h4 k hk]
  simp

/-- C99 fails: with `ESN0(waveform, ratio)` and an oversampling factor above one, the signal to noise ratio of demodulated symbols
is the oversampling factor times the configured one. -/
theorem C99_oversampling_fails (hz : White μ z) (s : List Level × Device) (bandwidth : ℝ) (hd : HasPower s.1 bandwidth s.2.down 0)
    (ha : HasPower s.1 bandwidth s.2.adc 0) (os : ℕ) (hos : 1 < os) (q : Pulse ℂ) (energy : ℕ → ℝ) (hq : Short os q energy)
    (ratio : ℝ) (hr : 0 < ratio) (bits : ℕ)
    (ho : s.1[s.2.own]? = some (.esn0 (some ratio) (some ⟨fun _ q => energy q, bits⟩))) (seeds : Seeds)
    (w : SingleCarrier.Waveform ℂ) (hw : 0 < w.size) (symbols : List ℂ) (hl : symbols.length = w.size) :
    ∃ (x : List ℂ) (y : Ω → Sig) (out : Ω → List ℂ), w.modulate q symbols = .ok x ∧
      (∀ ω, receive (fun s k => z s k ω) s bandwidth seeds ⟨1, x.length, fun _ t => x.getD t 0, 0⟩ = .ok (y ω)) ∧
      (∀ ω, w.demodulate q ((y ω).samples 0) = .ok (out ω)) ∧
      ∀ k < w.size, 1 / ∫ ω, ‖(out ω).getD k 0 - symbols.getD k 0‖ ^ 2 ∂μ = os * ratio ∧ (os : ℝ) * ratio ≠ ratio := by
  obtain ⟨x, y, out, h1, h2, h3, h4⟩ := decide_short hz s bandwidth hd ha os (by omega) q energy hq ratio hr ⟨_, ho, rfl⟩ seeds w hw symbols hl
  refine ⟨x, y, out, h1, h2, h3, fun k hk => ⟨?_, ?_⟩⟩
  · rw [h4 k hk]
    simp
  · have : (1 : ℝ) < os := by exact_mod_cast hos
    intro h
    nlinarith

end

example : Short 4 (SingleCarrier.frequencyModulated 3 4) (fun q => ((3 * q : ℕ) : ℝ)) := .inr ⟨3, by omega, rfl, fun _ => rfl⟩

/-! ### Storage -/

/-- Noise levels restored from a file: `level.py` 118-124, 191-197, 296-305.  Levels relative to waveforms inherit
`Serializable.serialize` and `Serializable.Deserialize` (`core/factory.py` 54-85), which store nothing and return `None`. -/
def Level.restored : Level → Option Level
  | .thermal t => some (.thermal t)
  | .n0 p => some (.n0 p)
  | .snr r p _ => some (.snr r p 1)
  | .ebn0 _ _ => none
  | .esn0 _ _ => none

/-- C99, storage: temperatures and noise powers are restored. -/
theorem C99_store_partial (l : Level) (h : (∃ t, l = .thermal t) ∨ (∃ p, l = .n0 p) ∨ ∃ r p, l = .snr r p 1) : l.restored = some l := by
  rcases h with ⟨t, rfl⟩ | ⟨p, rfl⟩ | ⟨r, p, rfl⟩ <;> rfl

/-- C99 fails: signal to noise ratios forget the channel they were scaled by, and energy ratios are not restored at all. -/
theorem C99_store_fails :
    (∀ (r p c b : ℝ), 0 < r → 0 < p → c ≠ 1 → ∃ l, (Level.snr r p c).restored = some l ∧ l.power b ≠ (Level.snr r p c).power b) ∧
    ∀ v r, (Level.ebn0 v r).restored = none ∧ (Level.esn0 v r).restored = none := by
  refine ⟨fun r p c b hr hp hc => ⟨_, rfl, ?_⟩, fun v r => ⟨rfl, rfl⟩⟩
  simp only [Level.power, ne_eq, Except.ok.injEq]
  intro h
  exact hc (mul_left_cancel₀ (div_pos hp hr).ne' h).symm

end Verif.Noise
