import Verif.Channel.State
import Verif.Channel.Phases
import Verif.Signal.Slice
import Mathlib.Tactic.Linarith

/-!
# Samples of multipath fading channels

`hermespy/channel/fading/fading.py`: `MultipathFadingSample`, its channel state and its propagation, and the
spatial response its realization hands to it (C75).

Simplifications: arrays over paths and sinusoids are functions of their indices; they have the same number of
rows, which `MultipathFadingChannel` guarantees, so that the `zip` of lines 306-324 runs over all paths; delays
are not negative (fading.py 693); the numbers of delay samples follow from exact arithmetic.
-/

namespace Verif.Fading

open Finset Verif.Channel.State

/-- `MultipathFadingSample`, channel/fading/fading.py 147-215. `paths` and `sinus` are the dimensions of the
arrays; `srx × stx` is the shape of the spatial response `resp`; `numRx` and `numTx` are the numbers of
receiving antennas of the receiver and of transmitting antennas of the transmitter in the link state. -/
structure Sample where
  paths : Nat
  sinus : Nat
  power : Nat → ℝ
  delay : Nat → ℚ
  losAngle : Nat → ℝ
  nlosAngle : Nat → Nat → ℝ
  losPhase : Nat → ℝ
  nlosPhase : Nat → Nat → ℝ
  losGain : Nat → ℝ
  nlosGain : Nat → ℝ
  losDoppler : ℝ
  nlosDoppler : ℝ
  srx : Nat
  stx : Nat
  resp : Nat → Nat → ℂ
  gain : ℝ
  bandwidth : ℚ
  time : ℚ
  numRx : Nat
  numTx : Nat

/-- `np.rint(self.delay_profile * self.bandwidth).astype(int)`, fading.py 297. -/
def Sample.steps (s : Sample) (p : Nat) : Nat := (Verif.Signal.pyRound (s.delay p * s.bandwidth)).toNat

/-- `self.__delay_profile.max()`, fading.py 215, of a profile that is not empty. -/
def Sample.maxDelay (s : Sample) : ℚ := (List.range s.paths).foldl (fun m p => max m (s.delay p)) (s.delay 0)

/-- `round(self.__max_delay * self.bandwidth)`, fading.py 351 and 372. -/
def Sample.maxSteps (s : Sample) : Nat := (Verif.Signal.pyRound (s.maxDelay * s.bandwidth)).toNat

/-- `expected_energy_scale`, fading.py 290-291. -/
noncomputable def Sample.energyScale (s : Sample) : ℝ := s.gain * ∑ p ∈ range s.paths, s.power p

/-- `__path_impulse_generator`, fading.py 299-343: value of path `p` at sample `i`. -/
noncomputable def Sample.impulse (s : Sample) (p i : Nat) : ℂ :=
  (Real.sqrt (s.gain * s.power p) : ℂ) *
    ((s.nlosGain p : ℂ) * ∑ n ∈ range s.sinus,
        Complex.exp (Complex.I * ((s.nlosDoppler * (i / (s.bandwidth : ℝ)) *
          Real.cos ((2 * Real.pi * (1 + n) + s.nlosAngle p n) / s.sinus) + s.nlosPhase p n : ℝ) : ℂ)) +
      (s.losGain p : ℂ) * Complex.exp (Complex.I *
        ((s.losDoppler * (i / (s.bandwidth : ℝ)) * Real.cos (s.losAngle p) + s.losPhase p : ℝ) : ℂ)))

/-- The loop of `state`, fading.py 353-358, over the paths. An index equal to the number of taps is not
skipped and refused by numpy. -/
def stateLoop (h : Nat → Nat → ℂ) (d : Nat → Nat) (taps : Nat) :
    List Nat → (Nat → Nat → ℂ) → Except PyErr (Nat → Nat → ℂ)
  | [], a => .ok a
  | p :: ps, a =>
    if taps < d p then stateLoop h d taps ps a
    else if taps ≤ d p then .error .index
    else stateLoop h d taps ps fun i k => if k = d p then a i k + h p i else a i k

/-- `state`, fading.py 345-369. -/
noncomputable def Sample.state (s : Sample) (n maxTaps : Nat) : Except PyErr (Csi ℂ) :=
  let taps := min (1 + s.maxSteps) maxTaps
  match stateLoop s.impulse s.steps taps (List.range s.paths) fun _ _ => 0 with
  | .error e => .error e
  | .ok a => create .impulse s.srx s.stx n taps (fun r t i k => s.resp r t * a i k) (some taps) none

/-- The loop of `_propagate`, fading.py 385-390. The product has the rows of the signal; it is added to an array
of `T` rows, which numpy accepts for equal numbers of rows and for a single row. -/
def propagateLoop (h : Nat → Nat → ℂ) (d : Nat → Nat) (T : Nat) (x : Sig ℂ) :
    List Nat → (Nat → Nat → ℂ) → Except PyErr (Nat → Nat → ℂ)
  | [], y => .ok y
  | p :: ps, y =>
    if x.streams ≠ T ∧ x.streams ≠ 1 then .error .value
    else propagateLoop h d T x ps fun t m =>
      if d p ≤ m ∧ m < d p + x.len then
        y t m + x.val (if x.streams = 1 then 0 else t) (m - d p) * h p (m - d p)
      else y t m

/-- `_propagate`, fading.py 371-406. The offset of the block stays (line 403). -/
noncomputable def Sample.propagate (s : Sample) (x : Sig ℂ) : Except PyErr (Sig ℂ) :=
  let len := x.len + s.maxSteps
  let R := min s.srx s.numRx
  let T := min s.stx s.numTx
  if 0 < len ∧ 0 < R then
    match propagateLoop s.impulse s.steps T x (List.range s.paths) fun _ _ => 0 with
    | .error e => .error e
    | .ok y => .ok ⟨R, len, fun r m => ∑ t ∈ range T, s.resp r t * y t m⟩
  else .ok ⟨R, len, fun _ _ => 0⟩

/-- `_reciprocal_sample`, fading.py 517-538, for the link state in the opposite direction. -/
def Sample.reciprocal (s : Sample) (time : ℚ) (numRx numTx : Nat) : Sample :=
  { s with srx := s.stx, stx := s.srx, resp := fun r t => s.resp t r, time := time, numRx := numRx,
           numTx := numTx }

/-- The spatial response of `_sample`, fading.py 476-489, for phases `u` of the ten by ten variable, an array of
`nRx` antennas at the receiver and `nTx` at the transmitter, and the covariances of a correlation model with
their sizes. `@` refuses inner dimensions that differ. -/
noncomputable def spatialResponse (u : Nat → Nat → ℝ) (nRx nTx : Nat)
    (corr : Option ((Nat × (Nat → Nat → ℂ)) × (Nat × (Nat → Nat → ℂ)))) :
    Except PyErr (Nat × Nat × (Nat → Nat → ℂ)) :=
  let H : Nat → Nat → ℂ := fun r t => Complex.exp (2 * Complex.I * Real.pi * u r t)
  let a := min 10 nRx
  let b := min 10 nTx
  match corr with
  | none => .ok (a, b, H)
  | some ((m, A), (k, B)) =>
    if m ≠ a then .error .value
    else if b ≠ k then .error .value
    else .ok (m, k, fun r t => ∑ j ∈ range b, (∑ i ∈ range a, A r i * H i j) * B j t)

/-! ## Rounding and delays -/

theorem pyRound_mono {x y : ℚ} (h : x ≤ y) : Verif.Signal.pyRound x ≤ Verif.Signal.pyRound y := by
  have hf : ⌊x⌋ ≤ ⌊y⌋ := Int.floor_mono h
  unfold Verif.Signal.pyRound
  dsimp only
  rcases hf.lt_or_eq with h1 | h1
  · split_ifs <;> omega
  · rw [h1]
    split_ifs <;> first | omega | (exfalso; linarith)

theorem le_foldl_max {l : List Nat} {f : Nat → ℚ} {m : ℚ} :
    m ≤ l.foldl (fun m p => max m (f p)) m ∧ ∀ p ∈ l, f p ≤ l.foldl (fun m p => max m (f p)) m := by
  induction l generalizing m with
  | nil => simp
  | cons a l ih =>
    obtain ⟨h1, h2⟩ := ih (m := max m (f a))
    refine ⟨(le_max_left _ _).trans h1, fun p hp => ?_⟩
    rcases List.mem_cons.mp hp with rfl | hp
    · exact (le_max_right _ _).trans h1
    · exact h2 p hp

theorem foldl_max_mem {l : List Nat} {f : Nat → ℚ} {m : ℚ} :
    l.foldl (fun m p => max m (f p)) m = m ∨ ∃ p ∈ l, l.foldl (fun m p => max m (f p)) m = f p := by
  induction l generalizing m with
  | nil => simp
  | cons a l ih =>
    rcases ih (m := max m (f a)) with h | ⟨p, hp, h⟩
    · rcases max_choice m (f a) with h' | h'
      · left; rw [List.foldl_cons, h, h']
      · right; exact ⟨a, by simp, by rw [List.foldl_cons, h, h']⟩
    · right; exact ⟨p, by simp [hp], h⟩

theorem steps_le (s : Sample) (hb : 0 ≤ s.bandwidth) {p : Nat} (hp : p < s.paths) : s.steps p ≤ s.maxSteps := by
  have h : s.delay p ≤ s.maxDelay := (le_foldl_max (f := s.delay)).2 p (List.mem_range.mpr hp)
  have := pyRound_mono (mul_le_mul_of_nonneg_right h hb)
  unfold Sample.steps Sample.maxSteps
  omega

theorem steps_max (s : Sample) (h0 : 0 < s.paths) : ∃ p < s.paths, s.steps p = s.maxSteps := by
  rcases foldl_max_mem (l := List.range s.paths) (f := s.delay) (m := s.delay 0) with h | ⟨p, hp, h⟩
  · exact ⟨0, h0, by unfold Sample.steps Sample.maxSteps Sample.maxDelay; rw [h]⟩
  · exact ⟨p, List.mem_range.mp hp, by unfold Sample.steps Sample.maxSteps Sample.maxDelay; rw [h]⟩

/-! ## The loops -/

theorem stateLoop_ok (h : Nat → Nat → ℂ) (d : Nat → Nat) (taps : Nat) (l : List Nat) (hl : ∀ p ∈ l, d p ≠ taps)
    (a : Nat → Nat → ℂ) :
    ∃ b, stateLoop h d taps l a = .ok b ∧
      ∀ i, ∀ k < taps, b i k = a i k + (l.map fun p => if d p = k then h p i else 0).sum := by
  induction l generalizing a with
  | nil => exact ⟨a, rfl, by simp⟩
  | cons p l ih =>
    have hp := hl p (by simp)
    have ih := ih (fun q hq => hl q (by simp [hq]))
    unfold stateLoop
    by_cases h1 : taps < d p
    · obtain ⟨b, hb, hv⟩ := ih a
      refine ⟨b, by rw [if_pos h1, hb], fun i k hk => ?_⟩
      rw [hv i k hk, List.map_cons, List.sum_cons, if_neg (by omega), zero_add]
    · rw [if_neg h1, if_neg (by omega)]
      obtain ⟨b, hb, hv⟩ := ih fun i k => if k = d p then a i k + h p i else a i k
      refine ⟨b, hb, fun i k hk => ?_⟩
      rw [hv i k hk, List.map_cons, List.sum_cons]
      by_cases h2 : d p = k
      · rw [if_pos h2.symm, if_pos h2, add_assoc]
      · rw [if_neg fun e => h2 e.symm, if_neg h2, zero_add]

theorem stateLoop_error (h : Nat → Nat → ℂ) (d : Nat → Nat) (taps : Nat) (l : List Nat) (hl : ∃ p ∈ l, d p = taps)
    (a : Nat → Nat → ℂ) : stateLoop h d taps l a = .error .index := by
  induction l generalizing a with
  | nil => simp at hl
  | cons q l ih =>
    obtain ⟨p, hp, e⟩ := hl
    unfold stateLoop
    by_cases h1 : d q = taps
    · rw [if_neg (by omega), if_pos (by omega)]
    · have : ∃ p ∈ l, d p = taps := by
        rcases List.mem_cons.mp hp with rfl | hp
        · exact absurd e h1
        · exact ⟨p, hp, e⟩
      by_cases h2 : taps < d q
      · rw [if_pos h2, ih this]
      · rw [if_neg h2, if_neg (by omega), ih this]

theorem propagateLoop_ok (h : Nat → Nat → ℂ) (d : Nat → Nat) (T : Nat) (x : Sig ℂ) (hx : x.streams = T) (l : List Nat)
    (y : Nat → Nat → ℂ) :
    ∃ z, propagateLoop h d T x l y = .ok z ∧ ∀ t < T, ∀ m, z t m = y t m +
      (l.map fun p => if d p ≤ m ∧ m < d p + x.len then x.val t (m - d p) * h p (m - d p) else 0).sum := by
  induction l generalizing y with
  | nil => exact ⟨y, rfl, by simp⟩
  | cons p l ih =>
    unfold propagateLoop
    rw [if_neg fun h => h.1 hx]
    obtain ⟨z, hz, hv⟩ := ih fun t m => if d p ≤ m ∧ m < d p + x.len then
        y t m + x.val (if x.streams = 1 then 0 else t) (m - d p) * h p (m - d p) else y t m
    refine ⟨z, hz, fun t ht m => ?_⟩
    rw [hv t ht m, List.map_cons, List.sum_cons]
    have hrow : (if x.streams = 1 then 0 else t) = t := by split <;> omega
    rw [hrow]
    by_cases h2 : d p ≤ m ∧ m < d p + x.len
    · rw [if_pos h2, if_pos h2, add_assoc]
    · rw [if_neg h2, if_neg h2, zero_add]

theorem propagateLoop_error (h : Nat → Nat → ℂ) (d : Nat → Nat) (T : Nat) (x : Sig ℂ) (hx : x.streams ≠ T)
    (h1 : x.streams ≠ 1) (l : List Nat) (hl : l ≠ []) (y : Nat → Nat → ℂ) :
    propagateLoop h d T x l y = .error .value := by
  cases l with
  | nil => exact absurd rfl hl
  | cons p l =>
    unfold propagateLoop
    rw [if_pos ⟨hx, h1⟩]

/-! ## Propagation -/

/-- C75: the propagation equation. A signal with as many streams as the response has columns arrives at every
antenna as the sum over all paths of the delayed signals, each weighted with the path's gain at the time the
signal was sent and with the spatial response; the output is longer by the largest delay. -/
theorem C75_propagate (s : Sample) (x : Sig ℂ) (hx : x.streams = min s.stx s.numTx) :
    ∃ y : Sig ℂ, s.propagate x = .ok y ∧ y.streams = min s.srx s.numRx ∧ y.len = x.len + s.maxSteps ∧
      ∀ r < y.streams, ∀ m < y.len, y.val r m = ∑ t ∈ range x.streams, s.resp r t *
        ∑ p ∈ range s.paths, if s.steps p ≤ m ∧ m < s.steps p + x.len then
          s.impulse p (m - s.steps p) * x.val t (m - s.steps p) else 0 := by
  unfold Sample.propagate
  dsimp only
  by_cases h : 0 < x.len + s.maxSteps ∧ 0 < min s.srx s.numRx
  · obtain ⟨z, hz, hv⟩ := propagateLoop_ok s.impulse s.steps (min s.stx s.numTx) x hx (List.range s.paths)
      fun _ _ => 0
    rw [if_pos h, hz]
    refine ⟨_, rfl, rfl, rfl, fun r _ m _ => ?_⟩
    dsimp only
    rw [hx]
    refine Finset.sum_congr rfl fun t ht => ?_
    rw [hv t (Finset.mem_range.mp ht) m, zero_add, sum_map_range]
    congr 1
    refine Finset.sum_congr rfl fun p _ => ?_
    split
    · exact mul_comm _ _
    · rfl
  · rw [if_neg h]
    refine ⟨_, rfl, rfl, rfl, fun r hr m hm => ?_⟩
    dsimp only at hr hm
    omega

/-- C75: whenever all delays fit into the requested number of taps and the response has the size of the arrays,
the channel state predicts the propagated signal: same streams, same length, same samples. Missing: arrays of more than ten antennas
(`C75_antennas_fails`), arrays with antennas that only transmit or only receive (`C75_duplex_fails`). -/
theorem C75_state_partial (s : Sample) (x : Sig ℂ) (maxTaps : Nat) (hb : 0 ≤ s.bandwidth)
    (hm : s.maxSteps < maxTaps) (hr : s.srx = s.numRx) (ht : s.stx = s.numTx) (hx : x.streams = s.numTx) :
    ∃ (c : Csi ℂ) (y z : Sig ℂ), s.state x.len maxTaps = .ok c ∧ s.propagate x = .ok y ∧
      Verif.Channel.State.propagate c x = .ok z ∧ y.streams = z.streams ∧ y.len = z.len ∧
      ∀ r < y.streams, ∀ m < y.len, y.val r m = z.val r m := by
  have hmin : min (1 + s.maxSteps) maxTaps = 1 + s.maxSteps := by omega
  have hd : ∀ p ∈ List.range s.paths, s.steps p ≠ 1 + s.maxSteps := by
    intro p hp
    have := steps_le s hb (List.mem_range.mp hp)
    omega
  obtain ⟨a, ha, hav⟩ := stateLoop_ok s.impulse s.steps (1 + s.maxSteps) (List.range s.paths) hd fun _ _ => 0
  obtain ⟨y, hy, hys, hyl, hyv⟩ := C75_propagate s x (by rw [ht, Nat.min_self]; exact hx)
  obtain ⟨z, hz, hzs, hzl, hzv⟩ := C69_propagate
    (⟨.impulse, s.srx, s.stx, x.len, 1 + s.maxSteps, fun r t i k => s.resp r t * a i k, 1 + s.maxSteps,
      1 + s.maxSteps⟩ : Csi ℂ) x (by dsimp only; omega) (Or.inl le_rfl) (by dsimp only; omega)
  refine ⟨_, y, z, ?_, hy, hz, ?_, ?_, ?_⟩
  · unfold Sample.state
    dsimp only
    rw [hmin, ha]
    unfold create
    simp
  · rw [hys, hzs, hr, Nat.min_self]
  · rw [hyl, hzl]; dsimp only; omega
  · intro r hr' m hm'
    rw [hyv r hr' m hm', hzv r (by rw [hys, hr, Nat.min_self] at hr'; rw [hr]; exact hr') m, hx, ← ht]
    refine Finset.sum_congr rfl fun t _ => ?_
    have h1 : ∀ k ∈ range (1 + s.maxSteps), (if k ≤ m ∧ m < k + x.len then
        s.resp r t * a (if x.len = 1 then 0 else m - k) k * x.val t (m - k) else 0) =
        s.resp r t * ∑ p ∈ range s.paths, if s.steps p = k then
          (if k ≤ m ∧ m < k + x.len then s.impulse p (m - k) * x.val t (m - k) else 0) else 0 := by
      intro k hk
      by_cases h : k ≤ m ∧ m < k + x.len
      · have hi : (if x.len = 1 then 0 else m - k) = m - k := by split <;> omega
        rw [if_pos h, hi, hav _ k (Finset.mem_range.mp hk), zero_add, sum_map_range, mul_assoc, Finset.sum_mul]
        congr 1
        refine Finset.sum_congr rfl fun p _ => ?_
        rw [if_pos h]
        split <;> simp
      · simp [h]
    dsimp only
    rw [Finset.sum_congr rfl h1, ← Finset.mul_sum, Finset.sum_comm]
    congr 1
    refine Finset.sum_congr rfl fun p hp => ?_
    have := steps_le s hb (Finset.mem_range.mp hp)
    rw [Finset.sum_ite_eq, if_pos (Finset.mem_range.mpr (by omega))]

/-- A sample with two paths, the second delayed by three samples, two receiving and one transmitting antennas. -/
noncomputable def demo : Sample where
  paths := 2
  sinus := 4
  power := fun _ => 1
  delay := fun p => 3 * p
  losAngle := fun _ => 0
  nlosAngle := fun _ _ => 0
  losPhase := fun _ => 0
  nlosPhase := fun _ _ => 0
  losGain := fun _ => 1
  nlosGain := fun _ => 0
  losDoppler := 0
  nlosDoppler := 0
  srx := 2
  stx := 1
  resp := fun _ _ => 1
  gain := 1
  bandwidth := 1
  time := 0
  numRx := 2
  numTx := 1

theorem demo_steps : demo.steps 0 = 0 ∧ demo.steps 1 = 3 ∧ demo.maxSteps = 3 := by
  refine ⟨?_, ?_, ?_⟩ <;>
    (norm_num [demo, Sample.steps, Sample.maxSteps, Sample.maxDelay, Verif.Signal.pyRound, List.range_succ] <;> rfl)

example : 0 ≤ demo.bandwidth ∧ demo.maxSteps < 8 ∧ demo.srx = demo.numRx ∧ demo.stx = demo.numTx :=
  ⟨by norm_num [demo], by rw [demo_steps.2.2]; norm_num, rfl, rfl⟩

example : ∃ y : Sig ℂ, demo.propagate ⟨1, 1, fun _ _ => 5⟩ = .ok y ∧ y.len = 4 ∧ y.val 1 0 = 5 ∧ y.val 1 3 = 5 ∧
    y.val 1 2 = 0 := by
  obtain ⟨y, hy, hs, hl, hv⟩ := C75_propagate demo ⟨1, 1, fun _ _ => 5⟩ rfl
  have h1 : demo.maxSteps = 3 := demo_steps.2.2
  have hs2 : y.streams = 2 := by rw [hs]; rfl
  have hl4 : y.len = 4 := by rw [hl, h1]
  have himp : ∀ p, demo.impulse p 0 = 1 := by
    intro p
    simp [Sample.impulse, demo]
  have key : ∀ m < 4, y.val 1 m = ∑ p ∈ range 2, if demo.steps p ≤ m ∧ m < demo.steps p + 1 then (5 : ℂ) else 0 := by
    intro m hm
    rw [hv 1 (by omega) m (by omega), Finset.sum_range_one]
    have : demo.resp 1 0 = 1 := rfl
    rw [this, one_mul]
    refine Finset.sum_congr rfl fun p _ => ?_
    dsimp only
    split
    · rename_i h
      have : m - demo.steps p = 0 := by omega
      rw [this, himp, one_mul]
    · rfl
  refine ⟨y, hy, hl4, ?_, ?_, ?_⟩
  · rw [key 0 (by norm_num)]
    simp [Finset.sum_range_succ, demo_steps.1, demo_steps.2.1]
  · rw [key 3 (by norm_num)]
    simp [Finset.sum_range_succ, demo_steps.1, demo_steps.2.1]
  · rw [key 2 (by norm_num)]
    simp [Finset.sum_range_succ, demo_steps.1, demo_steps.2.1]

/-- C75: fewer taps than the channel has. If no path is delayed by exactly the requested number of taps, the state
holds the requested taps, every one the sum of the paths with that delay. Missing: `C75_taps_fails`. -/
theorem C75_taps_partial (s : Sample) (n maxTaps : Nat) (hb : 0 ≤ s.bandwidth)
    (h : maxTaps ≤ s.maxSteps → ∀ p < s.paths, s.steps p ≠ maxTaps) :
    ∃ c : Csi ℂ, s.state n maxTaps = .ok c ∧ c.rx = s.srx ∧ c.tx = s.stx ∧ c.smp = n ∧
      c.inf = min (1 + s.maxSteps) maxTaps ∧ c.fmt = .impulse ∧
      ∀ r t i, ∀ k < c.inf, c.st r t i k =
        s.resp r t * ∑ p ∈ (range s.paths).filter (fun p => s.steps p = k), s.impulse p i := by
  have hd : ∀ p ∈ List.range s.paths, s.steps p ≠ min (1 + s.maxSteps) maxTaps := by
    intro p hp
    have h1 := steps_le s hb (List.mem_range.mp hp)
    have h2 := fun h' => h h' p (List.mem_range.mp hp)
    omega
  obtain ⟨a, ha, hav⟩ := stateLoop_ok s.impulse s.steps _ (List.range s.paths) hd fun _ _ => 0
  unfold Sample.state
  dsimp only
  rw [ha]
  unfold create
  refine ⟨_, if_neg (by simp), rfl, rfl, rfl, rfl, rfl, fun r t i k hk => ?_⟩
  dsimp only at hk ⊢
  rw [hav i k hk, zero_add, sum_map_range, Finset.sum_filter]

/-- Two of four taps. -/
example : ∀ p < demo.paths, demo.steps p ≠ 2 := by
  intro p hp
  have : p = 0 ∨ p = 1 := by
    have : demo.paths = 2 := rfl
    omega
  rcases this with rfl | rfl
  · rw [demo_steps.1]; norm_num
  · rw [demo_steps.2.1]; norm_num

/-- C75, false of the code: a channel with a path delayed by exactly the requested number of taps has no state at
all. Line 355 skips longer delays only, so that the path is written behind the last tap. -/
theorem C75_taps_fails (s : Sample) (n maxTaps : Nat) (h : maxTaps ≤ s.maxSteps)
    (hp : ∃ p < s.paths, s.steps p = maxTaps) : s.state n maxTaps = .error .index := by
  obtain ⟨p, hp, e⟩ := hp
  unfold Sample.state
  dsimp only
  rw [stateLoop_error _ _ _ _ ⟨p, List.mem_range.mpr hp, by omega⟩]

/-- Three of four taps. -/
example : demo.state 7 3 = .error .index :=
  C75_taps_fails demo 7 3 (by rw [demo_steps.2.2]) ⟨1, by norm_num [demo], demo_steps.2.1⟩

/-- C75: the reciprocal sample has the reciprocal state, whatever is requested of it; in particular reciprocity
holds in both directions of a link. -/
theorem C75_reciprocal (s : Sample) (time : ℚ) (numRx numTx n maxTaps : Nat) :
    (s.reciprocal time numRx numTx).state n maxTaps = (s.state n maxTaps).bind reciprocal ∧
    ((s.reciprocal time numRx numTx).reciprocal s.time s.numRx s.numTx) = s := by
  refine ⟨?_, rfl⟩
  unfold Sample.state
  have h1 : (s.reciprocal time numRx numTx).impulse = s.impulse := rfl
  have h2 : (s.reciprocal time numRx numTx).steps = s.steps := rfl
  have h3 : (s.reciprocal time numRx numTx).maxSteps = s.maxSteps := rfl
  have h4 : (s.reciprocal time numRx numTx).paths = s.paths := rfl
  rw [h1, h2, h3, h4]
  dsimp only
  cases stateLoop s.impulse s.steps (min (1 + s.maxSteps) maxTaps) (List.range s.paths) fun _ _ => 0 with
  | error e => rfl
  | ok a => simp [create, reciprocal, Sample.reciprocal, Except.bind]

/-! ## Antennas -/

/-- C75, false of the code: more than ten antennas. The response never has more than ten rows or columns, so that
every signal sent by more than ten antennas is refused, and of more than ten receiving antennas only ten receive. -/
theorem C75_antennas_fails (s : Sample) (u : Nat → Nat → ℝ)
    (h : spatialResponse u s.numRx s.numTx none = .ok (s.srx, s.stx, s.resp)) (x : Sig ℂ)
    (hx : x.streams = s.numTx) (h0 : 0 < s.paths) (hl : 0 < x.len) (hr : 0 < s.numRx) :
    (10 < s.numTx → s.propagate x = .error .value) ∧
    (s.numTx ≤ 10 → 10 < s.numRx → ∃ y, s.propagate x = .ok y ∧ y.streams = 10) := by
  have hs : s.srx = min 10 s.numRx ∧ s.stx = min 10 s.numTx := by
    unfold spatialResponse at h
    simp only [Except.ok.injEq, Prod.mk.injEq] at h
    exact ⟨h.1.symm, h.2.1.symm⟩
  constructor
  · intro ht
    unfold Sample.propagate
    dsimp only
    rw [if_pos ⟨by omega, by omega⟩, propagateLoop_error _ _ _ _ (by omega) (by omega)]
    intro h'
    have := congrArg List.length h'
    simp at this
    omega
  · intro h1 h2
    obtain ⟨y, hy, hys, _⟩ := C75_propagate s x (by omega)
    exact ⟨y, hy, by omega⟩

example : ∃ (s : Sample) (u : Nat → Nat → ℝ), spatialResponse u s.numRx s.numTx none = .ok (s.srx, s.stx, s.resp) ∧
    0 < s.paths ∧ 0 < s.numRx ∧ 10 < s.numTx :=
  ⟨{ demo with srx := 2, stx := 10, numTx := 12,
                resp := fun _ _ => Complex.exp (2 * Complex.I * Real.pi * (0 : ℝ)) }, fun _ _ => 0,
    by simp [spatialResponse, demo], by norm_num [demo], by norm_num [demo], by norm_num⟩

/-- C75, false of the code: arrays with antennas that only transmit or only receive. The response is cut to all
antennas of the arrays, `nRx` and `nTx`; propagation cuts it to the receiving and transmitting ones, but the state
does not: it describes a link with other numbers of streams. With a correlation model, whose covariances have the
sizes of the receiving and transmitting antennas, such devices have no sample at all. -/
theorem C75_duplex_fails (s : Sample) (u : Nat → Nat → ℝ) (nRx nTx : Nat) (hn : nRx ≤ 10 ∧ nTx ≤ 10)
    (h : spatialResponse u nRx nTx none = .ok (s.srx, s.stx, s.resp)) (hr : s.numRx < nRx) (ht : s.numTx ≤ nTx)
    (x : Sig ℂ) (hx : x.streams = s.numTx) (hb : 0 ≤ s.bandwidth) (maxTaps : Nat) (hm : s.maxSteps < maxTaps)
    (A B : Nat → Nat → ℂ) :
    (∃ (c : Csi ℂ) (y : Sig ℂ), s.state x.len maxTaps = .ok c ∧ s.propagate x = .ok y ∧ c.rx = nRx ∧
      y.streams = s.numRx) ∧
    spatialResponse u nRx nTx (some ((s.numRx, A), (s.numTx, B))) = .error .value := by
  have hs : s.srx = nRx ∧ s.stx = nTx := by
    unfold spatialResponse at h
    simp only [Except.ok.injEq, Prod.mk.injEq] at h
    omega
  constructor
  · obtain ⟨c, hc, hcr, _⟩ := C75_taps_partial s x.len maxTaps hb fun h' => by omega
    obtain ⟨y, hy, hys, _⟩ := C75_propagate s x (by omega)
    exact ⟨c, y, hc, hy, by omega, by omega⟩
  · unfold spatialResponse
    dsimp only
    rw [if_pos (by omega)]

/-- A receiver with one transmitting and one receiving antenna. -/
example : ∃ s : Sample, spatialResponse (fun _ _ => 0) 2 1 none = .ok (s.srx, s.stx, s.resp) ∧ s.numRx < 2 ∧
    s.numTx ≤ 1 ∧ s.maxSteps < 4 :=
  ⟨{ demo with numRx := 1, resp := fun _ _ => Complex.exp (2 * Complex.I * Real.pi * (0 : ℝ)) },
    by simp [spatialResponse, demo], by norm_num, by norm_num [demo], by
      have : Sample.maxSteps { demo with numRx := 1, resp := fun _ _ => Complex.exp (2 * Complex.I * Real.pi *
        (0 : ℝ)) } = demo.maxSteps := rfl
      rw [this, demo_steps.2.2]; norm_num⟩

/-! ## Doppler -/

/-- A sample with one line of sight path of unit power, without delay, moving along the line of sight. -/
noncomputable def sight (f : ℝ) (b : ℚ) (phase : ℝ) (time : ℚ) : Sample where
  paths := 1
  sinus := 0
  power := fun _ => 1
  delay := fun _ => 0
  losAngle := fun _ => 0
  nlosAngle := fun _ _ => 0
  losPhase := fun _ => phase
  nlosPhase := fun _ _ => 0
  losGain := fun _ => 1
  nlosGain := fun _ => 0
  losDoppler := f
  nlosDoppler := f
  srx := 1
  stx := 1
  resp := fun _ _ => 1
  gain := 1
  bandwidth := b
  time := time
  numRx := 1
  numTx := 1

theorem sight_impulse (f : ℝ) (b : ℚ) (phase : ℝ) (time : ℚ) (i : Nat) : (sight f b phase time).impulse 0 i =
    Complex.exp (Complex.I * (phase : ℂ)) * Complex.exp (Complex.I * ((f * (i / (b : ℝ)) : ℝ) : ℂ)) := by
  simp only [Sample.impulse, sight]
  rw [← Complex.exp_add]
  simp only [mul_one, Real.sqrt_one, Complex.ofReal_one, one_mul, Finset.range_zero, Finset.sum_empty, mul_zero,
    zero_add, Real.cos_zero]
  congr 1
  push_cast
  ring

theorem sight_steps (f : ℝ) (b : ℚ) (phase : ℝ) (time : ℚ) (p : Nat) : (sight f b phase time).steps p = 0 := by
  simp [Sample.steps, sight, Verif.Signal.pyRound_zero]

theorem sight_maxSteps (f : ℝ) (b : ℚ) (phase : ℝ) (time : ℚ) : (sight f b phase time).maxSteps = 0 := by
  simp [Sample.maxSteps, Sample.maxDelay, sight, Verif.Signal.pyRound_zero]

theorem sight_state (f : ℝ) (b : ℚ) (hb : 0 ≤ b) (phase : ℝ) (time : ℚ) (n maxTaps : Nat) (hm : 0 < maxTaps) :
    ∃ c : Csi ℂ, (sight f b phase time).state n maxTaps = .ok c ∧ c.smp = n ∧ c.inf = 1 ∧
      ∀ i, c.st 0 0 i 0 = Complex.exp (Complex.I * (phase : ℂ)) *
        Complex.exp (Complex.I * ((f * (i / (b : ℝ)) : ℝ) : ℂ)) := by
  have hms : (sight f b phase time).maxSteps = 0 := sight_maxSteps ..
  obtain ⟨c, hc, _, _, hs, hi, _, hv⟩ := C75_taps_partial (sight f b phase time) n maxTaps hb
    fun h => by omega
  have hinf : c.inf = 1 := by omega
  refine ⟨c, hc, hs, hinf, fun i => ?_⟩
  rw [hv 0 0 i 0 (by omega)]
  have hf : (range (sight f b phase time).paths).filter (fun p => (sight f b phase time).steps p = 0) = {0} := by
    ext p
    simp [sight_steps]
    simp [sight]
  rw [hf, Finset.sum_singleton, sight_impulse]
  simp [sight]

theorem exp_ne_one {x : ℝ} (h0 : 0 < x) (h1 : x < 2 * Real.pi) : Complex.exp (Complex.I * (x : ℂ)) ≠ 1 := by
  intro h
  rw [Complex.exp_eq_one_iff] at h
  obtain ⟨n, hn⟩ := h
  have h2 : (x : ℂ) = n * (2 * Real.pi) := by
    have : Complex.I * (x : ℂ) = Complex.I * (n * (2 * Real.pi)) := by rw [hn]; ring
    exact mul_left_cancel₀ Complex.I_ne_zero this
  have h3 : x = n * (2 * Real.pi) := by exact_mod_cast h2
  have hpi := Real.two_pi_pos
  have h4 : 0 < n := by
    by_contra h
    have : (n : ℝ) ≤ 0 := by exact_mod_cast not_lt.mp h
    nlinarith
  have h5 : (1 : ℝ) ≤ n := by exact_mod_cast h4
  nlinarith

/-- C75, false of the code: the Doppler frequency is documented in Hz. A line of sight shifted by `f` Hz turns by
`2π f / b` radians from one sample to the next at a sampling rate `b`; the simulated one turns by `f / b`. -/
theorem C75_doppler_fails (f : ℝ) (b : ℚ) (phase : ℝ) (time : ℚ) (hf : 0 < f) (hfb : f < b) (maxTaps : Nat)
    (hm : 0 < maxTaps) : ∃ c : Csi ℂ, (sight f b phase time).state 2 maxTaps = .ok c ∧
      c.st 0 0 1 0 = Complex.exp (Complex.I * ((f / b : ℝ) : ℂ)) * c.st 0 0 0 0 ∧
      c.st 0 0 1 0 ≠ Complex.exp (Complex.I * ((2 * Real.pi * f / b : ℝ) : ℂ)) * c.st 0 0 0 0 := by
  have hb : (0 : ℝ) < b := hf.trans hfb
  obtain ⟨c, hc, _, _, hv⟩ := sight_state f b (by exact_mod_cast hb.le) phase time 2 maxTaps hm
  have e : c.st 0 0 1 0 = Complex.exp (Complex.I * ((f / b : ℝ) : ℂ)) * c.st 0 0 0 0 := by
    rw [hv, hv]
    rw [mul_comm (Complex.exp (Complex.I * (phase : ℂ))), mul_comm (Complex.exp (Complex.I * (phase : ℂ))), ← mul_assoc]
    congr 1
    rw [← Complex.exp_add]
    congr 1
    push_cast
    ring
  refine ⟨c, hc, e, ?_⟩
  rw [e]
  intro h
  have h0 : c.st 0 0 0 0 ≠ 0 := by rw [hv]; exact mul_ne_zero (Complex.exp_ne_zero _) (Complex.exp_ne_zero _)
  have h1 := mul_right_cancel₀ h0 h
  have h2 : Complex.exp (Complex.I * (((2 * Real.pi - 1) * (f / b) : ℝ) : ℂ)) = 1 := by
    have : Complex.I * (((2 * Real.pi - 1) * (f / b) : ℝ) : ℂ) =
        Complex.I * ((2 * Real.pi * f / b : ℝ) : ℂ) - Complex.I * ((f / b : ℝ) : ℂ) := by push_cast; ring
    rw [this, Complex.exp_sub, h1, div_self (Complex.exp_ne_zero _)]
  have h3 : 0 < f / b := div_pos hf hb
  have h4 : f / b < 1 := (div_lt_one hb).mpr hfb
  have hpi := Real.two_le_pi
  exact exp_ne_one (by nlinarith) (by nlinarith) h2

/-- C75, false of the code: the sample does not know its time. A link sampled one sampling interval later does not
continue the evolution: its state starts again where the first one started, although the first one predicts another
value for that time. -/
theorem C75_evolution_fails (f : ℝ) (b : ℚ) (phase : ℝ) (time : ℚ) (hf : 0 < f) (hfb : f < b) (maxTaps : Nat)
    (hm : 0 < maxTaps) : ∃ c c' : Csi ℂ, (sight f b phase time).state 2 maxTaps = .ok c ∧
      (sight f b phase (time + 1 / b)).state 2 maxTaps = .ok c' ∧ c'.st 0 0 0 0 = c.st 0 0 0 0 ∧
      c'.st 0 0 0 0 ≠ c.st 0 0 1 0 := by
  have hb : (0 : ℝ) < b := hf.trans hfb
  have hb' : 0 ≤ b := by exact_mod_cast hb.le
  obtain ⟨c, hc, _, _, hv⟩ := sight_state f b hb' phase time 2 maxTaps hm
  obtain ⟨c', hc', _, _, hv'⟩ := sight_state f b hb' phase (time + 1 / b) 2 maxTaps hm
  refine ⟨c, c', hc, hc', by rw [hv, hv'], ?_⟩
  rw [hv, hv']
  intro h
  have h1 := mul_left_cancel₀ (Complex.exp_ne_zero _) h
  have h3 : 0 < f / b := div_pos hf hb
  have h4 : f / b < 1 := (div_lt_one hb).mpr hfb
  have hpi := Real.two_le_pi
  refine exp_ne_one (x := f / b) h3 (by linarith) ?_
  rw [show f / (b : ℝ) = f * (((1 : Nat) : ℝ) / b) by push_cast; ring, ← h1]
  simp

/-- C75, false of the code: blocks of a signal. Cutting a signal into two blocks restarts the evolution at the second
one: its first sample is received with the gain the first block began with, not with the gain at its time. -/
theorem C75_blocks_fails (f : ℝ) (b : ℚ) (phase : ℝ) (time : ℚ) (hf : 0 < f) (hfb : f < b) (v w : ℂ) (hw : w ≠ 0) :
    ∃ y y1 y2 : Sig ℂ, (sight f b phase time).propagate ⟨1, 2, fun _ i => if i = 0 then v else w⟩ = .ok y ∧
      (sight f b phase time).propagate ⟨1, 1, fun _ _ => v⟩ = .ok y1 ∧
      (sight f b phase time).propagate ⟨1, 1, fun _ _ => w⟩ = .ok y2 ∧ y1.len = 1 ∧ y2.len = 1 ∧
      y.val 0 0 = y1.val 0 0 ∧ y.val 0 1 ≠ y2.val 0 0 := by
  have hb : (0 : ℝ) < b := hf.trans hfb
  have key : ∀ x : Sig ℂ, x.streams = 1 → ∃ y : Sig ℂ, (sight f b phase time).propagate x = .ok y ∧ y.len = x.len ∧
      ∀ m < x.len, y.val 0 m = (sight f b phase time).impulse 0 m * x.val 0 m := by
    intro x hx
    have hms := sight_maxSteps f b phase time
    obtain ⟨y, hy, hys, hyl, hyv⟩ := C75_propagate (sight f b phase time) x (by rw [hx]; rfl)
    refine ⟨y, hy, by omega, fun m hm => ?_⟩
    have h1 : y.streams = 1 := hys
    rw [hyv 0 (by omega) m (by omega), hx, Finset.sum_range_one]
    have hr : (sight f b phase time).resp 0 0 = 1 := rfl
    have hp : (sight f b phase time).paths = 1 := rfl
    rw [hr, one_mul, hp, Finset.sum_range_one, sight_steps, if_pos (by omega), Nat.sub_zero]
  obtain ⟨y, hy, _, hv⟩ := key ⟨1, 2, fun _ i => if i = 0 then v else w⟩ rfl
  obtain ⟨y1, hy1, hl1, hv1⟩ := key ⟨1, 1, fun _ _ => v⟩ rfl
  obtain ⟨y2, hy2, hl2, hv2⟩ := key ⟨1, 1, fun _ _ => w⟩ rfl
  refine ⟨y, y1, y2, hy, hy1, hy2, hl1, hl2, ?_, ?_⟩
  · rw [hv 0 (by norm_num), hv1 0 (by norm_num)]
    simp
  · rw [hv 1 (by norm_num), hv2 0 (by norm_num)]
    intro h
    simp only [one_ne_zero, if_false] at h
    have h1 := mul_right_cancel₀ hw h
    rw [sight_impulse, sight_impulse] at h1
    have h2 := mul_left_cancel₀ (Complex.exp_ne_zero _) h1
    have h3 : 0 < f / b := div_pos hf hb
    have h4 : f / b < 1 := (div_lt_one hb).mpr hfb
    have hpi := Real.two_le_pi
    refine exp_ne_one (x := f / b) h3 (by linarith) ?_
    rw [show f / (b : ℝ) = f * (((1 : Nat) : ℝ) / b) by push_cast; ring, h2]
    simp

example : (0 : ℝ) < 50 ∧ (50 : ℝ) < (1000 : ℚ) := ⟨by norm_num, by norm_num⟩

end Verif.Fading
