import Verif.Channel.Fading
import Verif.Signal.Resample

/-!
# Samples of QuaDRiGa channels

`hermespy/channel/quadriga/quadriga.py`, `hermespy/channel/quadriga/interface.py` and the parts of
`hermespy/channel/channel.py` which call them (C137).

The Matlab or Octave process behind `_run_quadriga` is an arbitrary function of the parameters handed to it; what it
returns are the arrays `gains` and `delays` of a sample, of three dimensions each.

Simplifications: delays are not negative (launch_quadriga.m asks for delays relative to the line of sight, line 80);
the numbers of delay samples follow from exact arithmetic; `propagate` is stated for signals of a single block;
`float` of a complex number, which numpy answers with its real part and a warning, is the real part.
-/

namespace Verif.Quadriga

open Finset Verif.Channel.State
open Verif.Fading (pyRound_mono le_foldl_max foldl_max_mem)

/-! ## Samples -/

/-- `QuadrigaChannelSample`, channel/quadriga/quadriga.py 45-67. `rx × tx × paths` is the shape of `path_gains`,
`drx × dtx × dpaths` the shape of `path_delays`. Of the link state: the bandwidth, the numbers of receiving antennas
of the receiver (`numRx`), of transmitting antennas of the transmitter (`numTx`) and of receiving antennas of the
transmitter (`txNumRx`). -/
structure Sample where
  rx : Nat
  tx : Nat
  paths : Nat
  gains : Nat → Nat → Nat → ℂ
  drx : Nat
  dtx : Nat
  dpaths : Nat
  delays : Nat → Nat → Nat → ℚ
  gain : ℝ
  bandwidth : ℚ
  numRx : Nat
  numTx : Nat
  txNumRx : Nat

/-- `int(round(d * self.bandwidth))`, quadriga.py 99 and 132. -/
def Sample.steps (s : Sample) (d : ℚ) : Nat := (Verif.Signal.pyRound (d * s.bandwidth)).toNat

/-- Entry `j` of the flattened array `path_delays`. -/
def Sample.entry (s : Sample) (j : Nat) : ℚ :=
  s.delays (j / (s.dtx * s.dpaths)) (j / s.dpaths % s.dtx) (j % s.dpaths)

/-- `int(np.round(np.max(self.path_delays) * self.bandwidth))`, quadriga.py 87 and 116: numpy refuses to take the
maximum of an empty array. -/
def Sample.maxSteps (s : Sample) : Except PyErr Nat :=
  if s.drx * s.dtx * s.dpaths = 0 then .error .value
  else .ok (s.steps
    ((List.range (s.drx * s.dtx * s.dpaths)).foldl (fun m j => max m (s.entry j)) (s.entry 0)))

/-- `delay.item()`, quadriga.py 99 and 132, of the slice of path `p`: numpy refuses arrays of another size than
one. -/
def Sample.item (s : Sample) (p : Nat) : Except PyErr ℚ :=
  if s.drx * s.dtx = 1 then .ok (s.delays 0 0 p) else .error .value

/-- `expected_energy_scale`, quadriga.py 83-84. -/
noncomputable def Sample.energyScale (s : Sample) : ℝ :=
  s.gain * (∑ r ∈ range s.rx, ∑ t ∈ range s.tx, ∑ p ∈ range s.paths, s.gains r t p).re

/-- The loop of `_propagate`, quadriga.py 96-100, over the paths. The product has the rows of `channel`; it is added
to an array of `txNumRx` rows, which numpy accepts for equal numbers of rows and for a single row. The columns always
fit, since no delay exceeds the maximum. -/
def Sample.propagateLoop (s : Sample) (x : Sig ℂ) : List Nat → (Nat → Nat → ℂ) → Except PyErr (Nat → Nat → ℂ)
  | [], y => .ok y
  | p :: ps, y =>
    match s.item p with
    | .error e => .error e
    | .ok d =>
      if s.tx ≠ x.streams then .error .value
      else if s.rx ≠ s.txNumRx ∧ s.rx ≠ 1 then .error .value
      else s.propagateLoop x ps fun r m =>
        if s.steps d ≤ m ∧ m < s.steps d + x.len then
          y r m + ∑ t ∈ range s.tx, s.gains (if s.rx = 1 then 0 else r) t p * x.val t (m - s.steps d)
        else y r m

/-- `_propagate`, quadriga.py 86-108. `zip` stops at the shorter of both arrays. The offset of the block stays. -/
noncomputable def Sample.propagate (s : Sample) (x : Sig ℂ) : Except PyErr (Sig ℂ) :=
  match s.maxSteps with
  | .error e => .error e
  | .ok D =>
    match s.propagateLoop x (List.range (min s.paths s.dpaths)) fun _ _ => 0 with
    | .error e => .error e
    | .ok y => .ok ⟨s.txNumRx, x.len + D, fun r m => y r m * (Real.sqrt s.gain : ℂ)⟩

/-- `ChannelSample.propagate`, channel/channel.py 352-379, for a signal of a single block. -/
noncomputable def Sample.reception (s : Sample) (x : Sig ℂ) : Except PyErr (Sig ℂ) :=
  open Classical in
  if s.energyScale ≤ 0 then .ok ⟨s.numRx, 0, fun _ _ => 0⟩
  else if x.streams ≠ s.numTx then .error .value
  else s.propagate x

/-- The loop of `state`, quadriga.py 129-133. The tap must exist; then the matrix `channel` is broadcast to the shape
`numRx × numTx × n` of the tap, which aligns its rows with the transmitting antennas and its columns with time. -/
def Sample.stateLoop (s : Sample) (n taps : Nat) :
    List Nat → (Nat → Nat → Nat → Nat → ℂ) → Except PyErr (Nat → Nat → Nat → Nat → ℂ)
  | [], a => .ok a
  | p :: ps, a =>
    match s.item p with
    | .error e => .error e
    | .ok d =>
      if taps ≤ s.steps d then .error .index
      else if ¬ ((s.rx = s.numTx ∨ s.rx = 1) ∧ (s.tx = n ∨ s.tx = 1)) then .error .value
      else s.stateLoop n taps ps fun r t i k =>
        if k = s.steps d then
          a r t i k + s.gains (if s.rx = 1 then 0 else t) (if s.tx = 1 then 0 else i) p
        else a r t i k

/-- `state`, quadriga.py 110-136. -/
noncomputable def Sample.state (s : Sample) (n maxTaps : Nat) : Except PyErr (Csi ℂ) :=
  match s.maxSteps with
  | .error e => .error e
  | .ok D =>
    let taps := min maxTaps (D + 1)
    match s.stateLoop n taps (List.range (min s.paths s.dpaths)) fun _ _ _ _ => 0 with
    | .error e => .error e
    | .ok a => create .impulse s.numRx s.numTx n taps (fun r t i k => a r t i k * (Real.sqrt s.gain : ℂ)) none none

/-! ## Delays -/

theorem entry_single (s : Sample) (ht : s.dtx = 1) {p : Nat} (hp : p < s.dpaths) :
    s.entry p = s.delays 0 0 p := by
  unfold Sample.entry
  rw [ht, one_mul, Nat.div_eq_of_lt hp, Nat.mod_eq_of_lt hp]

/-- For one delay per path the maximum is the largest delay of a path. -/
theorem maxSteps_spec (s : Sample) (hb : 0 ≤ s.bandwidth) (hr : s.drx = 1) (ht : s.dtx = 1) (h0 : 0 < s.dpaths) :
    ∃ D, s.maxSteps = .ok D ∧ (∀ p < s.dpaths, s.steps (s.delays 0 0 p) ≤ D) ∧
      ∃ p < s.dpaths, s.steps (s.delays 0 0 p) = D := by
  have hn : s.drx * s.dtx * s.dpaths = s.dpaths := by rw [hr, ht]; omega
  have hne : s.drx * s.dtx * s.dpaths ≠ 0 := by omega
  refine ⟨_, by unfold Sample.maxSteps; rw [if_neg hne], fun p hp => ?_, ?_⟩
  · rw [hn]
    have h : s.entry p ≤ _ := (le_foldl_max (l := List.range s.dpaths) (f := s.entry) (m := s.entry 0)).2 p
      (List.mem_range.mpr hp)
    rw [entry_single s ht hp] at h
    have := pyRound_mono (mul_le_mul_of_nonneg_right h hb)
    unfold Sample.steps
    omega
  · rw [hn]
    rcases foldl_max_mem (l := List.range s.dpaths) (f := s.entry) (m := s.entry 0) with h | ⟨p, hp, h⟩
    · exact ⟨0, h0, by rw [h, entry_single s ht h0]⟩
    · have hp' := List.mem_range.mp hp
      exact ⟨p, hp', by rw [h, entry_single s ht hp']⟩

theorem item_ok (s : Sample) (hr : s.drx = 1) (ht : s.dtx = 1) (p : Nat) : s.item p = .ok (s.delays 0 0 p) := by
  unfold Sample.item
  rw [if_pos (by rw [hr, ht])]

theorem item_error (s : Sample) (h : s.drx * s.dtx ≠ 1) (p : Nat) : s.item p = .error .value := by
  unfold Sample.item
  rw [if_neg h]

/-! ## The loops -/

theorem propagateLoop_ok (s : Sample) (x : Sig ℂ) (hr : s.drx = 1) (ht : s.dtx = 1) (hx : x.streams = s.tx)
    (hrow : s.rx = s.txNumRx ∨ s.rx = 1) (l : List Nat) (y : Nat → Nat → ℂ) :
    ∃ z, s.propagateLoop x l y = .ok z ∧ ∀ r m, z r m = y r m + (l.map fun p =>
      if s.steps (s.delays 0 0 p) ≤ m ∧ m < s.steps (s.delays 0 0 p) + x.len then
        ∑ t ∈ range s.tx, s.gains (if s.rx = 1 then 0 else r) t p * x.val t (m - s.steps (s.delays 0 0 p))
      else 0).sum := by
  induction l generalizing y with
  | nil => exact ⟨y, rfl, by simp⟩
  | cons p l ih =>
    unfold Sample.propagateLoop
    rw [item_ok s hr ht p]
    dsimp only
    rw [if_neg (by rw [hx]; simp), if_neg (by tauto)]
    obtain ⟨z, hz, hv⟩ := ih fun r m =>
      if s.steps (s.delays 0 0 p) ≤ m ∧ m < s.steps (s.delays 0 0 p) + x.len then
        y r m + ∑ t ∈ range s.tx,
          s.gains (if s.rx = 1 then 0 else r) t p * x.val t (m - s.steps (s.delays 0 0 p))
      else y r m
    refine ⟨z, hz, fun r m => ?_⟩
    rw [hv r m, List.map_cons, List.sum_cons]
    by_cases h : s.steps (s.delays 0 0 p) ≤ m ∧ m < s.steps (s.delays 0 0 p) + x.len
    · rw [if_pos h, if_pos h, add_assoc]
    · rw [if_neg h, if_neg h, zero_add]

theorem stateLoop_ok (s : Sample) (n taps : Nat) (hr : s.drx = 1) (ht : s.dtx = 1)
    (hs : (s.rx = s.numTx ∨ s.rx = 1) ∧ (s.tx = n ∨ s.tx = 1)) (l : List Nat)
    (hl : ∀ p ∈ l, s.steps (s.delays 0 0 p) < taps) (a : Nat → Nat → Nat → Nat → ℂ) :
    ∃ b, s.stateLoop n taps l a = .ok b ∧ ∀ r t i k, b r t i k = a r t i k + (l.map fun p =>
      if s.steps (s.delays 0 0 p) = k then
        s.gains (if s.rx = 1 then 0 else t) (if s.tx = 1 then 0 else i) p else 0).sum := by
  induction l generalizing a with
  | nil => exact ⟨a, rfl, by simp⟩
  | cons p l ih =>
    have hp := hl p (by simp)
    unfold Sample.stateLoop
    rw [item_ok s hr ht p]
    dsimp only
    rw [if_neg (by omega), if_neg (by tauto)]
    obtain ⟨b, hb, hv⟩ := ih (fun q hq => hl q (by simp [hq])) fun r t i k =>
      if k = s.steps (s.delays 0 0 p) then
        a r t i k + s.gains (if s.rx = 1 then 0 else t) (if s.tx = 1 then 0 else i) p
      else a r t i k
    refine ⟨b, hb, fun r t i k => ?_⟩
    rw [hv r t i k, List.map_cons, List.sum_cons]
    by_cases h : s.steps (s.delays 0 0 p) = k
    · rw [if_pos h.symm, if_pos h, add_assoc]
    · rw [if_neg fun e => h e.symm, if_neg h, zero_add]

/-! ## Propagation -/

/-- C137: for one delay per path, and a transmitter with as many receiving antennas as the receiver has, the signal at
every antenna is the sum over paths of the transmitted streams, delayed by the rounded delay of the path and weighted
with its coefficients and the root of the channel's gain; the output is longer by the largest delay of a path.
Missing: delays per pair of antennas (`C137_antennas_fails`), transmitters with other numbers of receiving antennas
(`C137_rows_fails`). -/
theorem C137_propagate_partial (s : Sample) (x : Sig ℂ) (hb : 0 ≤ s.bandwidth) (hdr : s.drx = 1) (hdt : s.dtx = 1)
    (h0 : 0 < s.paths) (hp : s.dpaths = s.paths) (hrow : s.txNumRx = s.rx) (hx : x.streams = s.tx) :
    ∃ y : Sig ℂ, s.propagate x = .ok y ∧ y.streams = s.rx ∧
      (∀ p < s.paths, x.len + s.steps (s.delays 0 0 p) ≤ y.len) ∧
      (∃ p < s.paths, y.len = x.len + s.steps (s.delays 0 0 p)) ∧
      ∀ r < s.rx, ∀ m, y.val r m = (Real.sqrt s.gain : ℂ) * ∑ p ∈ range s.paths, ∑ t ∈ range s.tx,
        if s.steps (s.delays 0 0 p) ≤ m ∧ m < s.steps (s.delays 0 0 p) + x.len then
          s.gains r t p * x.val t (m - s.steps (s.delays 0 0 p)) else 0 := by
  obtain ⟨D, hD, hle, q, hq, hqe⟩ := maxSteps_spec s hb hdr hdt (by omega)
  obtain ⟨z, hz, hv⟩ := propagateLoop_ok s x hdr hdt hx (Or.inl hrow.symm) (List.range (min s.paths s.dpaths))
    fun _ _ => 0
  refine ⟨⟨s.txNumRx, x.len + D, fun r m => z r m * (Real.sqrt s.gain : ℂ)⟩, ?_, hrow, fun p hp' => ?_,
    ⟨q, by omega, ?_⟩, fun r hr m => ?_⟩
  · unfold Sample.propagate
    rw [hD]
    dsimp only
    rw [hz]
  · have := hle p (by omega)
    dsimp only
    omega
  · dsimp only
    omega
  · dsimp only
    have hm : min s.paths s.dpaths = s.paths := by omega
    have hrow' : (if s.rx = 1 then 0 else r) = r := by split <;> omega
    rw [hv r m, zero_add, hm, sum_map_range, mul_comm, hrow']
    congr 1
    refine Finset.sum_congr rfl fun p _ => ?_
    by_cases h : s.steps (s.delays 0 0 p) ≤ m ∧ m < s.steps (s.delays 0 0 p) + x.len
    · simp [h]
    · simp [h]

/-- C137: between single antennas, the channel state predicts the propagated signal whenever all delays fit into the
requested number of taps. Missing: more antennas (`C137_state_fails`), fewer taps (`C137_taps_fails`). -/
theorem C137_state_partial (s : Sample) (x : Sig ℂ) (maxTaps : Nat) (hb : 0 ≤ s.bandwidth) (hdr : s.drx = 1)
    (hdt : s.dtx = 1) (h0 : 0 < s.paths) (hp : s.dpaths = s.paths) (hr : s.rx = 1) (ht : s.tx = 1)
    (hnr : s.numRx = 1) (hnt : s.numTx = 1) (hrow : s.txNumRx = 1) (hx : x.streams = 1)
    (hm : ∀ p < s.paths, s.steps (s.delays 0 0 p) < maxTaps) :
    ∃ (c : Csi ℂ) (y z : Sig ℂ), s.state x.len maxTaps = .ok c ∧ s.propagate x = .ok y ∧
      Verif.Channel.State.propagate c x = .ok z ∧ y.streams = z.streams ∧ y.len = z.len ∧
      ∀ r < y.streams, ∀ m < y.len, y.val r m = z.val r m := by
  obtain ⟨D, hD, hle, q, hq, hqe⟩ := maxSteps_spec s hb hdr hdt (by omega)
  obtain ⟨y, hy, hys, hyl, ⟨q', hq', hye⟩, hyv⟩ := C137_propagate_partial s x hb hdr hdt h0 hp (by omega) (by omega)
  have hylen : y.len = x.len + D := by
    have h1 := hle q' (by omega)
    have h2 := hyl q (by omega)
    omega
  have hmin : min maxTaps (D + 1) = D + 1 := by
    have := hm q (by omega)
    omega
  have hpm : min s.paths s.dpaths = s.paths := by omega
  obtain ⟨a, ha, hav⟩ := stateLoop_ok s x.len (D + 1) hdr hdt ⟨Or.inr hr, Or.inr ht⟩ (List.range s.paths)
    (fun p hp' => by have := hle p (by have := List.mem_range.mp hp'; omega); omega) fun _ _ _ _ => 0
  obtain ⟨z, hz, hzs, hzl, hzv⟩ := C69_propagate
    (⟨.impulse, 1, 1, x.len, D + 1, fun r t i k => a r t i k * (Real.sqrt s.gain : ℂ), D + 1, D + 1⟩ : Csi ℂ) x
      (by dsimp only; omega) (Or.inl le_rfl) (by dsimp only; omega)
  refine ⟨_, y, z, ?_, hy, hz, by rw [hys, hzs, hr], by rw [hylen, hzl]; dsimp only; omega, fun r hr' m hm' => ?_⟩
  · unfold Sample.state
    rw [hD]
    dsimp only
    rw [hmin, hpm, ha]
    unfold create
    simp [hnr, hnt]
  · rw [hyv r (by omega) m, hzv r (by dsimp only; omega) m]
    dsimp only
    have hr0 : r = 0 := by omega
    subst hr0
    simp only [ht, Finset.sum_range_one]
    have h1 : ∀ k ∈ range (D + 1), (if k ≤ m ∧ m < k + x.len then
        a 0 0 (if x.len = 1 then 0 else m - k) k * (Real.sqrt s.gain : ℂ) * x.val 0 (m - k) else 0) =
        (Real.sqrt s.gain : ℂ) * ∑ p ∈ range s.paths, if s.steps (s.delays 0 0 p) = k then
          (if k ≤ m ∧ m < k + x.len then s.gains 0 0 p * x.val 0 (m - k) else 0) else 0 := by
      intro k _
      by_cases h : k ≤ m ∧ m < k + x.len
      · rw [if_pos h, hav, zero_add, sum_map_range, hr, ht, if_pos rfl, if_pos rfl, mul_comm (∑ p ∈ _, _), mul_assoc,
          Finset.sum_mul]
        congr 1
        refine Finset.sum_congr rfl fun p _ => ?_
        rw [if_pos h]
        split <;> simp
      · simp [h]
    rw [Finset.sum_congr rfl h1, ← Finset.mul_sum, Finset.sum_comm]
    congr 1
    refine Finset.sum_congr rfl fun p hp' => ?_
    have := hle p (by have := Finset.mem_range.mp hp'; omega)
    rw [Finset.sum_ite_eq, if_pos (Finset.mem_range.mpr (by omega))]

/-- A sample between single antennas: two paths, the second delayed by two samples. -/
noncomputable def demo : Sample where
  rx := 1
  tx := 1
  paths := 2
  gains := fun _ _ p => if p = 0 then 1 else Complex.I
  drx := 1
  dtx := 1
  dpaths := 2
  delays := fun _ _ p => 2 * p
  gain := 4
  bandwidth := 1
  numRx := 1
  numTx := 1
  txNumRx := 1

theorem demo_steps (p : Nat) : demo.steps (demo.delays 0 0 p) = 2 * p := by
  have : Verif.Signal.pyRound ((2 * p : ℚ) * 1) = 2 * p := by
    have h : ((2 * p : ℚ) * 1) = ((2 * p : ℤ) : ℚ) := by push_cast; ring
    rw [h, Verif.Resample.pyRound_int]
  unfold Sample.steps demo
  dsimp only
  rw [this]
  omega

example : ∃ y : Sig ℂ, demo.propagate ⟨1, 3, fun _ i => i⟩ = .ok y ∧ y.streams = 1 ∧ y.val 0 2 = 4 ∧
    y.val 0 3 = 2 * Complex.I := by
  obtain ⟨y, hy, hs, _, _, hv⟩ := C137_propagate_partial demo ⟨1, 3, fun _ i => i⟩ (by norm_num [demo]) rfl rfl
    (by norm_num [demo]) rfl rfl rfl
  have h4 : Real.sqrt demo.gain = 2 := by
    have : demo.gain = 2 ^ 2 := by norm_num [demo]
    rw [this, Real.sqrt_sq (by norm_num)]
  have hpaths : demo.paths = 2 := rfl
  have htx : demo.tx = 1 := rfl
  refine ⟨y, hy, hs, ?_, ?_⟩
  · rw [hv 0 (by norm_num [demo]), h4, hpaths, htx]
    simp only [demo_steps, Finset.sum_range_succ, Finset.sum_range_zero]
    norm_num [demo]
  · rw [hv 0 (by norm_num [demo]), h4, hpaths, htx]
    simp only [demo_steps, Finset.sum_range_succ, Finset.sum_range_zero]
    norm_num [demo]

example : ∃ (c : Csi ℂ) (y z : Sig ℂ), demo.state 3 5 = .ok c ∧ demo.propagate ⟨1, 3, fun _ i => i⟩ = .ok y ∧
    Verif.Channel.State.propagate c ⟨1, 3, fun _ i => i⟩ = .ok z ∧ y.len = z.len := by
  obtain ⟨c, y, z, h1, h2, h3, _, h5, _⟩ := C137_state_partial demo ⟨1, 3, fun _ i => i⟩ 5 (by norm_num [demo]) rfl rfl
    (by norm_num [demo]) rfl rfl rfl rfl rfl rfl rfl (fun p hp => by
      have : p < 2 := hp
      rw [demo_steps]; omega)
  exact ⟨c, y, z, h1, h2, h3, h5⟩

/-! ## What does not hold -/

/-- C137: with delays of its own for every pair of antennas, as QuaDRiGa generates them, neither a signal can be
propagated nor a state be computed between arrays of more than one pair: both raise `ValueError`. -/
theorem C137_antennas_fails (s : Sample) (x : Sig ℂ) (n taps : Nat) (h : 1 < s.drx * s.dtx) (h0 : 0 < s.paths)
    (hd : 0 < s.dpaths) : s.propagate x = .error .value ∧ s.state n taps = .error .value := by
  have hne : s.drx * s.dtx * s.dpaths ≠ 0 := by
    have := Nat.mul_pos (show 0 < s.drx * s.dtx by omega) hd
    omega
  have hl : List.range (min s.paths s.dpaths) = 0 :: (List.range (min s.paths s.dpaths - 1)).map Nat.succ := by
    conv_lhs => rw [show min s.paths s.dpaths = (min s.paths s.dpaths - 1) + 1 by omega]
    rw [List.range_succ_eq_map]
  constructor
  · unfold Sample.propagate Sample.maxSteps
    rw [if_neg hne, hl]
    dsimp only
    unfold Sample.propagateLoop
    rw [item_error s (by omega)]
  · unfold Sample.state Sample.maxSteps
    rw [if_neg hne, hl]
    dsimp only
    unfold Sample.stateLoop
    rw [item_error s (by omega)]

example : ({ demo with drx := 2, dtx := 1, rx := 2, numRx := 2 }).propagate ⟨1, 3, fun _ i => i⟩ = .error .value :=
  (C137_antennas_fails { demo with drx := 2, dtx := 1, rx := 2, numRx := 2 } ⟨1, 3, fun _ i => i⟩ 3 3 (by norm_num)
    (by norm_num [demo]) (by norm_num [demo])).1

/-- C137: the rows of the output are counted at the wrong device. With one delay per path, a receiver with a single
antenna receives as many streams as the *transmitter* has receiving antennas, each a copy of the first one; with more
antennas than one, the signal cannot be propagated unless both numbers agree. -/
theorem C137_rows_fails (s : Sample) (x : Sig ℂ) (hb : 0 ≤ s.bandwidth) (hdr : s.drx = 1) (hdt : s.dtx = 1)
    (h0 : 0 < s.paths) (hp : s.dpaths = s.paths) (hx : x.streams = s.tx) :
    (s.rx = 1 → ∃ y : Sig ℂ, s.propagate x = .ok y ∧ y.streams = s.txNumRx ∧ ∀ r m, y.val r m = y.val 0 m) ∧
      (1 < s.rx → s.rx ≠ s.txNumRx → s.propagate x = .error .value) := by
  obtain ⟨D, hD, _⟩ := maxSteps_spec s hb hdr hdt (by omega)
  refine ⟨fun h1 => ?_, fun h1 h2 => ?_⟩
  · obtain ⟨z, hz, hv⟩ := propagateLoop_ok s x hdr hdt hx (Or.inr h1) (List.range (min s.paths s.dpaths)) fun _ _ => 0
    refine ⟨⟨s.txNumRx, x.len + D, fun r m => z r m * (Real.sqrt s.gain : ℂ)⟩, ?_, rfl, fun r m => ?_⟩
    · unfold Sample.propagate
      rw [hD]
      dsimp only
      rw [hz]
    · dsimp only
      rw [hv r m, hv 0 m, if_pos h1, if_pos h1]
  · have hl : List.range (min s.paths s.dpaths) = 0 :: (List.range (min s.paths s.dpaths - 1)).map Nat.succ := by
      conv_lhs => rw [show min s.paths s.dpaths = (min s.paths s.dpaths - 1) + 1 by omega]
      rw [List.range_succ_eq_map]
    unfold Sample.propagate
    rw [hD, hl]
    dsimp only
    unfold Sample.propagateLoop
    rw [item_ok s hdr hdt]
    dsimp only
    rw [if_neg (by rw [hx]; simp), if_pos ⟨h2, by omega⟩]

/-- A transmitter that does not receive: nothing arrives, not even an empty stream. -/
example : ∃ y : Sig ℂ, ({ demo with txNumRx := 0 }).propagate ⟨1, 3, fun _ i => i⟩ = .ok y ∧ y.streams = 0 := by
  obtain ⟨y, h, hs, _⟩ := (C137_rows_fails { demo with txNumRx := 0 } ⟨1, 3, fun _ i => i⟩ (by norm_num [demo]) rfl rfl
    (by norm_num [demo]) rfl rfl).1 rfl
  exact ⟨y, h, hs⟩

/-- C137: with one delay per path, the channel state of more than one transmitting antenna cannot be computed unless
exactly as many samples as antennas are asked for. If they are, and there are as many receiving as transmitting
antennas, the columns of the coefficients become samples in time and the rows transmitting antennas: every receiving
antenna is given the same state. -/
theorem C137_state_fails (s : Sample) (n maxTaps : Nat) (hb : 0 ≤ s.bandwidth) (hdr : s.drx = 1) (hdt : s.dtx = 1)
    (h0 : 0 < s.paths) (hp : s.dpaths = s.paths) (ht : 1 < s.tx)
    (hm : ∀ p < s.paths, s.steps (s.delays 0 0 p) < maxTaps) :
    (n ≠ s.tx → s.state n maxTaps = .error .value) ∧
      (n = s.tx → s.rx = s.tx → s.numTx = s.tx → ∃ c : Csi ℂ, s.state n maxTaps = .ok c ∧ ∀ r t i k,
        c.st r t i k = (Real.sqrt s.gain : ℂ) * ∑ p ∈ range s.paths,
          if s.steps (s.delays 0 0 p) = k then s.gains t i p else 0) := by
  obtain ⟨D, hD, hle, q, hq, hqe⟩ := maxSteps_spec s hb hdr hdt (by omega)
  have hmin : min maxTaps (D + 1) = D + 1 := by
    have := hm q (by omega)
    omega
  have hpm : min s.paths s.dpaths = s.paths := by omega
  refine ⟨fun hn => ?_, fun hn hr hnt => ?_⟩
  · have hl : List.range s.paths = 0 :: (List.range (s.paths - 1)).map Nat.succ := by
      conv_lhs => rw [show s.paths = (s.paths - 1) + 1 by omega]
      rw [List.range_succ_eq_map]
    have := hle 0 (by omega)
    unfold Sample.state
    rw [hD]
    dsimp only
    rw [hmin, hpm, hl]
    unfold Sample.stateLoop
    rw [item_ok s hdr hdt]
    dsimp only
    rw [if_neg (by omega), if_pos (by
      rintro ⟨_, h | h⟩
      · exact hn h.symm
      · omega)]
  · obtain ⟨a, ha, hav⟩ := stateLoop_ok s n (D + 1) hdr hdt ⟨Or.inl (by omega), Or.inl hn.symm⟩ (List.range s.paths)
      (fun p hp' => by have := hle p (by have := List.mem_range.mp hp'; omega); omega) fun _ _ _ _ => 0
    refine ⟨⟨.impulse, s.numRx, s.numTx, n, D + 1, fun r t i k => a r t i k * (Real.sqrt s.gain : ℂ), D + 1, D + 1⟩,
      ?_, fun r t i k => ?_⟩
    · unfold Sample.state
      rw [hD]
      dsimp only
      rw [hmin, hpm, ha]
      unfold create
      simp
    · dsimp only
      rw [hav, zero_add, sum_map_range, mul_comm, if_neg (by omega), if_neg (by omega)]

example : ({ demo with rx := 2, tx := 2, numRx := 2, numTx := 2, txNumRx := 2 }).state 3 5 = .error .value :=
  (C137_state_fails { demo with rx := 2, tx := 2, numRx := 2, numTx := 2, txNumRx := 2 } 3 5 (by norm_num [demo]) rfl rfl
    (by norm_num [demo]) rfl (by norm_num) (fun p hp => by
      have : p < 2 := hp
      have h := demo_steps p
      unfold Sample.steps at h ⊢
      change (Verif.Signal.pyRound (demo.delays 0 0 p * demo.bandwidth)).toNat < 5
      omega)).1 (by norm_num)

/-- C137: a path with a delay beyond the requested number of taps is not dropped, the request raises `IndexError`
instead (between single antennas, all others raise before). -/
theorem C137_taps_fails (s : Sample) (n maxTaps : Nat) (hb : 0 ≤ s.bandwidth) (hdr : s.drx = 1) (hdt : s.dtx = 1)
    (hp : s.dpaths = s.paths) (hr : s.rx = 1) (ht : s.tx = 1)
    (hm : ∃ p < s.paths, maxTaps ≤ s.steps (s.delays 0 0 p)) : s.state n maxTaps = .error .index := by
  obtain ⟨p, hpp, hpd⟩ := hm
  obtain ⟨D, hD, hle, _⟩ := maxSteps_spec s hb hdr hdt (by omega)
  have := hle p (by omega)
  have hmin : min maxTaps (D + 1) = maxTaps := by omega
  have hpm : min s.paths s.dpaths = s.paths := by omega
  have key : ∀ (l : List Nat) (a : Nat → Nat → Nat → Nat → ℂ),
      (∃ p ∈ l, maxTaps ≤ s.steps (s.delays 0 0 p)) → s.stateLoop n maxTaps l a = .error .index := by
    intro l
    induction l with
    | nil => intro a h; simp at h
    | cons q l ih =>
      intro a h
      unfold Sample.stateLoop
      rw [item_ok s hdr hdt]
      dsimp only
      by_cases hq : maxTaps ≤ s.steps (s.delays 0 0 q)
      · rw [if_pos hq]
      · rw [if_neg hq, if_neg (by tauto)]
        refine ih _ ?_
        obtain ⟨p', hp', he⟩ := h
        rcases List.mem_cons.mp hp' with rfl | hp'
        · exact absurd he hq
        · exact ⟨p', hp', he⟩
  unfold Sample.state
  rw [hD]
  dsimp only
  rw [hmin, hpm, key _ _ ⟨p, List.mem_range.mpr hpp, hpd⟩]

example : demo.state 3 2 = .error .index :=
  C137_taps_fails demo 3 2 (by norm_num [demo]) rfl rfl rfl rfl rfl ⟨1, by norm_num [demo], by rw [demo_steps]⟩

/-- C137: the energy scale adds up amplitudes instead of powers. Whenever the real parts of all coefficients do not add
up to a positive number, whatever is sent arrives as an empty signal, even a signal with the wrong number of streams. -/
theorem C137_silence_fails (s : Sample) (x : Sig ℂ) (hg : 0 ≤ s.gain)
    (h : (∑ r ∈ range s.rx, ∑ t ∈ range s.tx, ∑ p ∈ range s.paths, s.gains r t p).re ≤ 0) :
    ∃ y : Sig ℂ, s.reception x = .ok y ∧ y.streams = s.numRx ∧ y.len = 0 := by
  have hs : s.energyScale ≤ 0 := mul_nonpos_of_nonneg_of_nonpos hg h
  refine ⟨⟨s.numRx, 0, fun _ _ => 0⟩, ?_, rfl, rfl⟩
  unfold Sample.reception
  rw [if_pos hs]

/-- Otherwise signals with the right number of streams are propagated and all others refused. -/
theorem C137_reception_partial (s : Sample) (x : Sig ℂ) (hg : 0 < s.gain)
    (h : 0 < (∑ r ∈ range s.rx, ∑ t ∈ range s.tx, ∑ p ∈ range s.paths, s.gains r t p).re) :
    (x.streams = s.numTx → s.reception x = s.propagate x) ∧
      (x.streams ≠ s.numTx → s.reception x = .error .value) := by
  have hs : ¬ s.energyScale ≤ 0 := not_le.mpr (mul_pos hg h)
  unfold Sample.reception
  rw [if_neg hs]
  exact ⟨fun e => if_neg (by simp [e]), fun e => if_pos e⟩

/-- C137: the phase of the only path decides on whether anything arrives: a path of full power that turns the signal
around leaves nothing of it. -/
theorem C137_phase_fails (c : ℂ) (hc : ‖c‖ = 1) :
    ({ demo with paths := 1, dpaths := 1, gains := fun _ _ _ => c }).energyScale = 4 * c.re ∧
      ((∃ y : Sig ℂ, ({ demo with paths := 1, dpaths := 1, gains := fun _ _ _ => c }).reception ⟨1, 3, fun _ i => i⟩ =
        .ok y ∧ y.len = 0) ↔ c.re ≤ 0) ∧
      ∃ y : Sig ℂ, ({ demo with paths := 1, dpaths := 1, gains := fun _ _ _ => c }).propagate ⟨1, 3, fun _ i => i⟩ =
        .ok y ∧ ‖y.val 0 1‖ = 2 := by
  set s : Sample := { demo with paths := 1, dpaths := 1, gains := fun _ _ _ => c } with hs
  have hsum : (∑ r ∈ range s.rx, ∑ t ∈ range s.tx, ∑ p ∈ range s.paths, s.gains r t p) = c := by
    simp [hs, demo]
  have hg : s.gain = 4 := rfl
  obtain ⟨y, hy, _, hlen, _, hv⟩ := C137_propagate_partial s ⟨1, 3, fun _ i => i⟩ (by norm_num [hs, demo]) rfl rfl
    (by norm_num [hs]) rfl rfl rfl
  refine ⟨?_, ⟨?_, fun h => ?_⟩, y, hy, ?_⟩
  · unfold Sample.energyScale
    rw [hsum, hg]
  · rintro ⟨y', hy', hl⟩
    by_contra hc'
    rw [(C137_reception_partial s ⟨1, 3, fun _ i => i⟩ (by norm_num [hg]) (by rw [hsum]; exact not_le.mp hc')).1 rfl,
      hy, Except.ok.injEq] at hy'
    have h3 := hlen 0 (by norm_num [hs])
    rw [hy', hl] at h3
    dsimp only at h3
    omega
  · obtain ⟨y', h1, _, h2⟩ := C137_silence_fails s ⟨1, 3, fun _ i => i⟩ (by norm_num [hg]) (by rw [hsum]; exact h)
    exact ⟨y', h1, h2⟩
  · have hst : s.steps (s.delays 0 0 0) = 0 := demo_steps 0
    have hpaths : s.paths = 1 := rfl
    have htx : s.tx = 1 := rfl
    have h4 : Real.sqrt s.gain = 2 := by
      rw [hg, show (4 : ℝ) = 2 ^ 2 by norm_num, Real.sqrt_sq (by norm_num)]
    rw [hv 0 (by norm_num [hs, demo]), h4, hpaths, htx, Finset.sum_range_one, Finset.sum_range_one, hst]
    simp [hs, hc]

example : ∃ y : Sig ℂ, ({ demo with paths := 1, dpaths := 1, gains := fun _ _ _ => -1 }).reception ⟨1, 3, fun _ i => i⟩ =
    .ok y ∧ y.len = 0 := (C137_phase_fails (-1) (by simp)).2.1.mpr (by simp)

/-! ## Drawing samples -/

/-- What a link state contributes to a sample, channel/channel.py `LinkState` as far as it is used or could be
expected to be used here. -/
structure Link where
  carrier : ℚ
  bandwidth : ℚ
  time : ℚ
  txPos : ℚ × ℚ × ℚ
  rxPos : ℚ × ℚ × ℚ
  txVel : ℚ × ℚ × ℚ
  rxVel : ℚ × ℚ × ℚ
  numTx : Nat
  numRx : Nat

/-- The parameters that are handed to QuaDRiGa, quadriga/interface.py 143-161, apart from constants and the source
path. -/
structure Params where
  bandwidth : ℚ
  carrier : ℚ
  txPos : ℚ × ℚ × ℚ
  rxPos : ℚ × ℚ × ℚ
  scenario : String
  antenna : String
  numTx : Nat
  numRx : Nat
  speed : ℚ
  seed : Nat

/-- `QuadrigaInterface`, quadriga/interface.py 40-78: `gen` is what its generator was seeded with, `drawn` the number
of seeds drawn from it. The interface is a random node without mother (core/random_node.py 86-87, 100-101). -/
structure Iface where
  gen : Nat
  drawn : Nat
  scenario : String
  antenna : String

/-- The interfaces of a process; `next` is the first unused identity. -/
structure World where
  ifaces : Nat → Iface
  next : Nat

/-- `QuadrigaChannel`: its own generator and the identity of its interface. -/
structure Chan where
  gen : Nat
  iface : Nat

/-- `sample_quadriga`, quadriga/interface.py 132-164, up to the call of the backend; `draw g k` is the `k`-th integer
a generator seeded with `g` returns. -/
def sampleQuadriga (draw : Nat → Nat → Nat) (w : World) (i : Nat) (l : Link) : Params × World :=
  let f := w.ifaces i
  (⟨l.bandwidth, l.carrier, l.txPos, l.rxPos, f.scenario, f.antenna, l.numTx, l.numRx, 0, draw f.gen f.drawn⟩,
    { w with ifaces := fun j => if j = i then { f with drawn := f.drawn + 1 } else w.ifaces j })

/-- `QuadrigaChannelRealization._sample`, quadriga.py 162-167: `_realize` (215-216) hands the channel's interface over
without drawing a number. -/
def Chan.sample (draw : Nat → Nat → Nat) (w : World) (c : Chan) (l : Link) : Params × World :=
  sampleQuadriga draw w c.iface l

/-- The link in the opposite direction. -/
def Link.flip (l : Link) (numTx numRx : Nat) : Link :=
  { l with txPos := l.rxPos, rxPos := l.txPos, txVel := l.rxVel, rxVel := l.txVel, numTx := numTx, numRx := numRx }

/-- `_reciprocal_sample`, quadriga.py 169-172: the sample to be reversed is not used. -/
def Chan.reciprocal (draw : Nat → Nat → Nat) (w : World) (c : Chan) (_ : Params) (l : Link) : Params × World :=
  c.sample draw w l

/-- `QuadrigaChannel.__init__`, quadriga.py 192-213, with a seed or none and an interface or none. A generator without
seed is seeded with entropy of the operating system: `e` for the channel's, `e'` for that of an interface created here
(its default scenario and antenna, quadriga/interface.py 43-44). -/
def newChannel (w : World) (e e' : Nat) (seed : Option Nat) : Option Nat → World × Chan
  | some i => (w, ⟨seed.getD e, i⟩)
  | none => (⟨fun j => if j = w.next then ⟨e', 0, "3GPP_38.901_UMa_LOS", "omni"⟩ else w.ifaces j, w.next + 1⟩,
      ⟨seed.getD e, w.next⟩)

/-- `Deserialize` of a serialized channel, quadriga.py 219-225: only what every channel stores is restored. -/
def restore (w : World) (e e' : Nat) (seed : Option Nat) (_ : Chan) : World × Chan := newChannel w e e' seed none

/-- A history of samples, by channel and link. -/
def run (draw : Nat → Nat → Nat) : World → List (Chan × Link) → List Params
  | _, [] => []
  | w, (c, l) :: h => (c.sample draw w l).1 :: run draw (c.sample draw w l).2 h

/-- C137: over all histories of samples of all channels, the `k`-th sample is generated from the positions, the carrier
and the bandwidth of its link, the scenario of its channel's interface, and the seed whose number is the count of
samples taken before from channels with the same interface. A seeded interface given to a channel thus makes samples
reproducible, as long as all channels that share it are sampled in the same order. -/
theorem C137_history (draw : Nat → Nat → Nat) (w : World) (h : List (Chan × Link)) (k : Nat) (c : Chan) (l : Link)
    (hk : h[k]? = some (c, l)) : ∃ p : Params, (run draw w h)[k]? = some p ∧
      p.txPos = l.txPos ∧ p.rxPos = l.rxPos ∧ p.carrier = l.carrier ∧ p.bandwidth = l.bandwidth ∧
      p.numTx = l.numTx ∧ p.numRx = l.numRx ∧ p.scenario = (w.ifaces c.iface).scenario ∧
      p.antenna = (w.ifaces c.iface).antenna ∧
      p.seed = draw (w.ifaces c.iface).gen
        ((w.ifaces c.iface).drawn + ((h.take k).filter fun q => q.1.iface = c.iface).length) := by
  induction h generalizing w k with
  | nil => simp at hk
  | cons q h ih =>
    obtain ⟨c', l'⟩ := q
    cases k with
    | zero =>
      simp only [List.getElem?_cons_zero, Option.some.injEq, Prod.mk.injEq] at hk
      obtain ⟨rfl, rfl⟩ := hk
      exact ⟨_, rfl, rfl, rfl, rfl, rfl, rfl, rfl, rfl, rfl, by simp [Chan.sample, sampleQuadriga]⟩
    | succ k =>
      rw [List.getElem?_cons_succ] at hk
      obtain ⟨p, hp, h1, h2, h3, h4, h5, h6, h7, h8, h9⟩ := ih (c'.sample draw w l').2 k hk
      refine ⟨p, by unfold run; rw [List.getElem?_cons_succ, hp], h1, h2, h3, h4, h5, h6, ?_, ?_, ?_⟩
      · rw [h7]
        by_cases e : c.iface = c'.iface <;> simp [Chan.sample, sampleQuadriga, e]
      · rw [h8]
        by_cases e : c.iface = c'.iface <;> simp [Chan.sample, sampleQuadriga, e]
      · rw [h9]
        by_cases e : c.iface = c'.iface
        · simp only [Chan.sample, sampleQuadriga, e, if_true, List.take_succ_cons]
          rw [List.filter_cons_of_pos (by simp), List.length_cons]
          congr 1
          omega
        · have e' : ¬ c'.iface = c.iface := fun h => e h.symm
          simp only [Chan.sample, sampleQuadriga, e, if_false, List.take_succ_cons]
          rw [List.filter_cons_of_neg (by simp [e'])]

/-- C137: velocities and times of links do not matter, all devices rest. -/
theorem C137_motion_fails (draw : Nat → Nat → Nat) (w : World) (c : Chan) (l : Link) (u v : ℚ × ℚ × ℚ) (t : ℚ) :
    (c.sample draw w { l with txVel := u, rxVel := v, time := t }).1 = (c.sample draw w l).1 ∧
      (c.sample draw w l).1.speed = 0 := ⟨rfl, rfl⟩

/-- C137: seeding a channel does not make its samples reproducible. The seed a sample of a channel without interface
given is generated from is drawn from a generator that the operating system seeds, whatever seed the channel has; two
channels with the same seed differ as soon as their interfaces' generators do. -/
theorem C137_seed_fails (draw : Nat → Nat → Nat) (w : World) (e e' : Nat) (seed : Option Nat) (l : Link) :
    ((newChannel w e e' seed none).2.sample draw (newChannel w e e' seed none).1 l).1.seed = draw e' 0 := by
  simp [newChannel, Chan.sample, sampleQuadriga]

example : ∃ draw, ∀ (w : World) (l : Link), ∃ e e' : Nat,
    ((newChannel w 0 e (some 42) none).2.sample draw (newChannel w 0 e (some 42) none).1 l).1.seed ≠
      ((newChannel w 0 e' (some 42) none).2.sample draw (newChannel w 0 e' (some 42) none).1 l).1.seed :=
  ⟨fun g _ => g, fun w l => ⟨0, 1, by rw [C137_seed_fails, C137_seed_fails]; decide⟩⟩

/-- C137: a channel given an interface samples from it, whatever seeds there are: scenario, antennas and seed of a sample are those of the interface, and
creating the channel touches no interface. -/
theorem C137_given (draw : Nat → Nat → Nat) (w : World) (e e' : Nat) (seed : Option Nat) (i : Nat) (l : Link) :
    (newChannel w e e' seed (some i)).1 = w ∧
    ((newChannel w e e' seed (some i)).2.sample draw w l).1.scenario = (w.ifaces i).scenario ∧
    ((newChannel w e e' seed (some i)).2.sample draw w l).1.antenna = (w.ifaces i).antenna ∧
    ((newChannel w e e' seed (some i)).2.sample draw w l).1.seed = draw (w.ifaces i).gen (w.ifaces i).drawn :=
  ⟨rfl, rfl, rfl, rfl⟩

example (l : Link) : ((newChannel ⟨fun j => ⟨j, 0, "BERLIN_UMa_NLOS", "dipole"⟩, 3⟩ 5 6 (some 42) (some 2)).2.sample (fun g k => 10 * g + k)
    ⟨fun j => ⟨j, 0, "BERLIN_UMa_NLOS", "dipole"⟩, 3⟩ l).1.seed = 20 :=
  (C137_given (fun g k => 10 * g + k) ⟨fun j => ⟨j, 0, "BERLIN_UMa_NLOS", "dipole"⟩, 3⟩ 5 6 (some 42) 2 l).2.2.2

/-- C137: the reciprocal of a sample is a new sample, from the next seed of the generator instead of the one the sample
was generated from. Unless the generator happens to repeat itself, the channel is not reciprocal. -/
theorem C137_reciprocal_fails (draw : Nat → Nat → Nat) (w : World) (c : Chan) (l : Link) (nt nr : Nat) :
    (c.sample draw w l).1.seed = draw (w.ifaces c.iface).gen (w.ifaces c.iface).drawn ∧
    (c.reciprocal draw (c.sample draw w l).2 (c.sample draw w l).1 (l.flip nt nr)).1.seed =
      draw (w.ifaces c.iface).gen ((w.ifaces c.iface).drawn + 1) := by
  constructor
  · rfl
  · simp [Chan.reciprocal, Chan.sample, sampleQuadriga]

/-- With a backend that returns the seed as the coefficient of a single path, the reciprocal is not the transpose. -/
example : ∃ (draw : Nat → Nat → Nat) (backend : Params → ℂ), ∀ (w : World) (c : Chan) (l : Link),
    backend (c.reciprocal draw (c.sample draw w l).2 (c.sample draw w l).1 (l.flip 1 1)).1 ≠
      backend (c.sample draw w l).1 := by
  refine ⟨fun _ k => k, fun p => p.seed, fun w c l => ?_⟩
  obtain ⟨h1, h2⟩ := C137_reciprocal_fails (fun _ k => k) w c l 1 1
  dsimp only
  rw [h1, h2]
  push_cast
  intro h
  have h' : ((w.ifaces c.iface).drawn : ℂ) + 1 - (w.ifaces c.iface).drawn = 0 := by rw [h]; ring
  rw [add_sub_cancel_left] at h'
  exact one_ne_zero h'

/-- C137: a channel that is serialized and restored has lost its scenario, its antennas and its interface: whatever it
was, samples are drawn for urban macro cells with line of sight, through an interface of its own. -/
theorem C137_restore_fails (draw : Nat → Nat → Nat) (w : World) (e e' : Nat) (seed : Option Nat) (c : Chan) (l : Link)
    (hc : c.iface < w.next) :
    ((restore w e e' seed c).2.sample draw (restore w e e' seed c).1 l).1.scenario = "3GPP_38.901_UMa_LOS" ∧
      ((restore w e e' seed c).2.sample draw (restore w e e' seed c).1 l).1.antenna = "omni" ∧
      (restore w e e' seed c).2.iface ≠ c.iface := by
  refine ⟨by simp [restore, newChannel, Chan.sample, sampleQuadriga],
    by simp [restore, newChannel, Chan.sample, sampleQuadriga], ?_⟩
  simp only [restore, newChannel]
  omega

example : ((restore ⟨fun _ => ⟨7, 0, "BERLIN_UMa_NLOS", "dipole"⟩, 1⟩ 0 0 none ⟨0, 0⟩).2.sample (fun _ _ => 0)
    (restore ⟨fun _ => ⟨7, 0, "BERLIN_UMa_NLOS", "dipole"⟩, 1⟩ 0 0 none ⟨0, 0⟩).1
    ⟨0, 1, 0, (0, 0, 0), (0, 0, 0), (0, 0, 0), (0, 0, 0), 1, 1⟩).1.scenario ≠ "BERLIN_UMa_NLOS" := by
  rw [(C137_restore_fails (fun _ _ => 0) _ 0 0 none ⟨0, 0⟩ _ (by norm_num)).1]
  decide

end Verif.Quadriga
