import Verif.Channel.RadarPath
import Verif.Core.AntennaArrays
import Mathlib.Analysis.SpecialFunctions.Pow.Real

/-!
# C118: samples of cluster delay line channels

`ClusterDelayLineSample`, `hermespy/channel/cdl/cluster_delay_lines.py` 254-756: the rays such a sample
consists of, how it propagates signals over them, the channel state information it reports, and its
reciprocal.  Floating point numbers are idealised as real and complex numbers.  Responses of antenna arrays
(`hermespy/core/antennas.py`) are arbitrary functions of mode, carrier frequency and position, except in
`C118_direction_fails`, which takes the full model of C80.
-/

namespace Verif.Cdl

open Verif Verif.Core Finset
open Verif.Channel.State (Sig Csi)
open Verif.RadarChannel (Dev Mode Mat einsum light maxOf)

/-- The arguments of `ClusterDelayLineSample`, channel/cdl/cluster_delay_lines.py 279-319, and the link
state.  Angles and polarization transformations are indexed by cluster and ray, `rays` is the width of the
angle arrays, and all arrays have as many clusters as there are delays.  `rice` is in decibel. -/
structure Sample where
  los : Bool
  rice : ℝ
  aoa : Nat → Nat → ℝ
  zoa : Nat → Nat → ℝ
  aod : Nat → Nat → ℝ
  zod : Nat → Nat → ℝ
  rays : Nat
  offset : ℝ
  delays : List ℝ
  spread : ℝ
  powers : Nat → ℝ
  jones : Nat → Nat → Nat → Nat → ℂ
  tx : Dev
  rx : Dev
  fc : ℝ
  bw : ℝ

/-- `max_delay`, channel/cdl/cluster_delay_lines.py 316-319. -/
noncomputable def Sample.maxDelay (s : Sample) : ℝ :=
  max (maxOf ((s.delays.take 3).map fun d => d + s.spread * 2.56)) (maxOf s.delays) + s.offset

/-- `expected_energy_scale`, channel/cdl/cluster_delay_lines.py 406-407. -/
noncomputable def Sample.energyScale (s : Sample) : ℝ := ∑ c ∈ range s.delays.length, s.powers c

/-- `subcluster_indices`, channel/cdl/cluster_delay_lines.py 258-262. -/
def subclusters : List (List Nat) :=
  [[0, 1, 2, 3, 4, 5, 6, 7, 18, 19], [8, 9, 10, 11, 16, 17], [12, 13, 14, 15]]

/-- `num_split_clusters`, channel/cdl/cluster_delay_lines.py 433. -/
def Sample.numSplit (s : Sample) : Nat := min 2 s.delays.length

/-- `virtual_num_clusters`, channel/cdl/cluster_delay_lines.py 434. -/
def Sample.numVirtual (s : Sample) : Nat := 3 * s.numSplit + (s.delays.length - 2)

/-- `virtual_cluster_delays`, channel/cdl/cluster_delay_lines.py 437-442. -/
noncomputable def Sample.virtualDelays (s : Sample) : List ℝ :=
  ((s.delays.take s.numSplit).flatMap fun d =>
    [d + s.spread * 0, d + s.spread * 1.28, d + s.spread * 2.56]) ++ s.delays.drop s.numSplit

/-- `cluster_idx`, channel/cdl/cluster_delay_lines.py 451. -/
def clusterOf (i : Nat) : Nat := if i < 6 then i / 3 else i - 4

/-- `ray_indices`, channel/cdl/cluster_delay_lines.py 452-456. -/
def Sample.rayIndices (s : Sample) (c : Nat) : List Nat :=
  if c < s.numSplit then subclusters.getD c [] else List.range s.rays

/-- Cluster, ray and delay of the scattered rays in the order they are generated,
channel/cdl/cluster_delay_lines.py 450-467.  A ray which does not exist is an `IndexError`. -/
noncomputable def Sample.plan (s : Sample) : Except PyErr (List (Nat × Nat × ℝ)) :=
  if (List.range s.numVirtual).any fun i => (s.rayIndices (clusterOf i)).any fun m => decide (s.rays ≤ m) then
    .error .index
  else
    .ok ((List.range s.numVirtual).flatMap fun (i : Nat) =>
      (s.rayIndices (clusterOf i)).map fun (m : Nat) => (clusterOf i, m, s.virtualDelays.getD i 0))

/-- What the generator yields: a channel matrix, an impulse and a delay. -/
structure Tap where
  h : Mat
  w : Nat → ℂ
  delay : ℝ

/-- `db2lin(rice_factor)`, channel/cdl/cluster_delay_lines.py 429. -/
noncomputable def Sample.rician (s : Sample) : ℝ := (10 : ℝ) ^ (s.rice / 10)

/-- `nlos_scale`, channel/cdl/cluster_delay_lines.py 430. -/
noncomputable def Sample.scatter (s : Sample) : ℝ := if s.los then (1 + s.rician) ^ (-0.5 : ℝ) else 1

/-- `rx_array_response @ jones @ tx_array_response.T`, channel/cdl/cluster_delay_lines.py 481-484 and
513-516. -/
noncomputable def sandwich (b : Nat → Nat → ℂ) (j : Nat → Nat → ℂ) (a : Nat → Nat → ℂ) (r t : Nat) : ℂ :=
  ∑ q ∈ range 2, (∑ p ∈ range 2, b r p * j p q) * a t q

/-- `relative_velocity`, channel/cdl/cluster_delay_lines.py 446. -/
def Sample.relative (s : Sample) : Vec3 := s.rx.vel - s.tx.vel

/-- `np.exp(np.inner(direction, relative_velocity) * fast_fading * 2j * pi)`,
channel/cdl/cluster_delay_lines.py 445-447, 488-493 and 519-521. -/
noncomputable def Sample.fading (s : Sample) (u : Vec3) (n : Nat) : ℂ :=
  Complex.exp ((dot3 u s.relative * (s.fc / light * n / s.bw) : ℝ) * 2 * Complex.I * Real.pi)

/-- One scattered ray, channel/cdl/cluster_delay_lines.py 468-495. -/
noncomputable def Sample.ray (s : Sample) (e : Nat × Nat × ℝ) : Tap :=
  let u := fromSpherical (s.aod e.1 e.2.1) (s.zod e.1 e.2.1)
  let v := fromSpherical (s.aoa e.1 e.2.1) (s.zoa e.1 e.2.1)
  ⟨⟨s.rx.numRx, s.tx.numTx, fun r t =>
      sandwich (s.rx.resp .rx s.fc v) (fun p q => s.jones p q e.1 e.2.1) (s.tx.resp .tx s.fc u) r t *
        (Real.sqrt (s.powers e.1 / s.rays) * s.scatter : ℝ)⟩,
    s.fading v, e.2.2⟩

/-- `np.array([[1, 0], [-1, 0]])`, channel/cdl/cluster_delay_lines.py 515. -/
def sightJones (p q : Nat) : ℂ := if q = 0 then (if p = 0 then 1 else -1) else 0

/-- The line of sight component, channel/cdl/cluster_delay_lines.py 498-523. -/
noncomputable def Sample.sight (s : Sample) : Tap :=
  let v := s.rx.pos - s.tx.pos
  let d := norm3 v
  ⟨⟨s.rx.numRx, s.tx.numTx, fun r t =>
      sandwich (s.rx.resp .rx s.fc s.tx.pos) sightJones (s.tx.resp .tx s.fc s.rx.pos) r t *
        ((s.rician / (1 + s.rician)) ^ (0.5 : ℝ) : ℝ)⟩,
    fun n => Complex.exp (-2 * Complex.I * Real.pi * d * (s.fc / light : ℝ)) * s.fading (scale v d) n,
    s.delays.getD 0 0⟩

/-- `__ray_impulse_generator`, channel/cdl/cluster_delay_lines.py 409-523. -/
noncomputable def Sample.taps (s : Sample) : Except PyErr (List Tap) :=
  match s.plan with
  | .error e => .error e
  | .ok l => .ok (l.map s.ray ++ if s.los then [s.sight] else [])

/-- `int(x)` of a floating point number. -/
noncomputable def trunc (x : ℝ) : ℤ := if 0 ≤ x then ⌊x⌋ else ⌈x⌉

/-- A bound of a slice of an axis of `width` entries: negative ones count from the end, and it is clipped. -/
def clip (width : Nat) (i : ℤ) : Nat := (if i < 0 then max 0 (i + width) else min i width).toNat

/-- `propagated_samples[:, d : d + n] += e`, channel/cdl/cluster_delay_lines.py 549-551: the shapes must
agree, a single column is stretched. -/
noncomputable def addSlice (width : Nat) (d : ℤ) (n : Nat) (e y : Nat → Nat → ℂ) :
    Except PyErr (Nat → Nat → ℂ) :=
  if n = clip width (d + n) - clip width d ∨ n = 1 then
    .ok fun r k =>
      if clip width d ≤ k ∧ k < clip width (d + n) then y r k + e r (k - clip width d) else y r k
  else .error .value

/-- `int((delay + self.delay_offset) * self.bandwidth)`, channel/cdl/cluster_delay_lines.py 548 and 582. -/
noncomputable def Sample.index (s : Sample) (t : Tap) : ℤ := trunc ((t.delay + s.offset) * s.bw)

/-- The loop of channel/cdl/cluster_delay_lines.py 544-551. -/
noncomputable def Sample.loop (s : Sample) (nearest : Bool) (x : Sig ℂ) (width : Nat) :
    List Tap → (Nat → Nat → ℂ) → Except PyErr (Nat → Nat → ℂ)
  | [], y => .ok y
  | t :: ts, y =>
    if nearest then
      match einsum t.h x t.w with
      | .error e => .error e
      | .ok e =>
        match addSlice width (s.index t) x.len e y with
        | .error e => .error e
        | .ok y' => s.loop nearest x width ts y'
    else s.loop nearest x width ts y

/-- `_propagate`, channel/cdl/cluster_delay_lines.py 526-558.  `nearest` tells whether the interpolation mode
is `NEAREST`.  `np.einsum_path` refuses signals the channel matrices do not fit to. -/
noncomputable def Sample.propagate (s : Sample) (nearest : Bool) (x : Sig ℂ) : Except PyErr (Sig ℂ) :=
  let len : ℤ := x.len + ⌈s.maxDelay * s.bw⌉
  if len < 0 then .error .value
  else if x.streams = s.tx.numTx ∨ x.streams = 1 ∨ s.tx.numTx = 1 then
    match s.taps with
    | .error e => .error e
    | .ok ts =>
      match s.loop nearest x len.toNat ts fun _ _ => 0 with
      | .error e => .error e
      | .ok y => .ok ⟨s.rx.numRx, len.toNat, y⟩
  else .error .value

/-- `raw_state[:, :, :, i] += channel * impulse` for a tensor of `depth` taps,
channel/cdl/cluster_delay_lines.py 581-590. -/
noncomputable def Sample.addTap (s : Sample) (depth : ℤ) (maxTaps : Nat) (t : Tap)
    (st : Nat → Nat → Nat → Nat → ℂ) : Except PyErr (Nat → Nat → Nat → Nat → ℂ) :=
  if (maxTaps : ℤ) ≤ s.index t then .ok st
  else if depth ≤ s.index t ∨ s.index t < -depth then .error .index
  else
    .ok fun r a n k =>
      if (k : ℤ) = (if s.index t < 0 then s.index t + depth else s.index t) then
        st r a n k + t.h.val r a * t.w n
      else st r a n k

/-- The loop of channel/cdl/cluster_delay_lines.py 578-590. -/
noncomputable def Sample.stateLoop (s : Sample) (depth : ℤ) (maxTaps : Nat) :
    List Tap → (Nat → Nat → Nat → Nat → ℂ) → Except PyErr (Nat → Nat → Nat → Nat → ℂ)
  | [], st => .ok st
  | t :: ts, st =>
    match s.addTap depth maxTaps t st with
    | .error e => .error e
    | .ok st' => s.stateLoop depth maxTaps ts st'

/-- `state`, channel/cdl/cluster_delay_lines.py 561-592. -/
noncomputable def Sample.state (s : Sample) (smp maxTaps : Nat) : Except PyErr (Csi ℂ) :=
  let depth : ℤ := 1 + min (maxTaps : ℤ) ⌈s.maxDelay * s.bw⌉
  if depth < 0 then .error .value
  else
    match s.taps with
    | .error e => .error e
    | .ok ts =>
      match s.stateLoop depth maxTaps ts fun _ _ _ _ => 0 with
      | .error e => .error e
      | .ok st => Verif.Channel.State.create .impulse s.rx.numRx s.tx.numTx smp depth.toNat st none none

/-- `reciprocal`, channel/cdl/cluster_delay_lines.py 732-756, for the link in the opposite direction. -/
def Sample.reciprocal (s : Sample) : Sample :=
  { s with aoa := s.aod, zoa := s.zod, aod := s.aoa, zod := s.zoa, tx := s.rx, rx := s.tx }

/-- `_angular_spread`, channel/cdl/cluster_delay_lines.py 655-682.  The logarithm of zero is minus infinity
in numpy. -/
noncomputable def angularSpread (angles powers : List ℝ) : Except PyErr ℝ :=
  if angles.length ≠ powers.length then .error .value
  else
    let total : ℝ := powers.sum
    let weighted : ℂ := (List.zipWith (fun (a p : ℝ) => Complex.exp (Complex.I * a) * p) angles powers).sum
    .ok (Real.sqrt (-2 * Real.log ‖weighted / total‖))

/-! ### Which rays are generated -/

/-- What a cluster contributes: three times the same part of the rays of the first two clusters, at
different delays, and all rays of the others. -/
noncomputable def used (rays c : Nat) : List (Nat × ℝ) :=
  if c = 0 then [0, 1.28, 2.56].flatMap fun (a : ℝ) => [0, 1, 2, 3, 4, 5, 6, 7, 18, 19].map fun (m : Nat) => (m, a)
  else if c = 1 then [0, 1.28, 2.56].flatMap fun (a : ℝ) => [8, 9, 10, 11, 16, 17].map fun (m : Nat) => (m, a)
  else (List.range rays).map fun (m : Nat) => (m, 0)

/-- The rays of a sample by cluster. -/
noncomputable def Sample.schedule (s : Sample) : List (Nat × Nat × ℝ) :=
  (List.range s.delays.length).flatMap fun (c : Nat) =>
    (used s.rays c).map fun (e : Nat × ℝ) => (c, e.1, s.delays.getD c 0 + s.spread * e.2)

theorem indices_lt (s : Sample) (hr : 20 ≤ s.rays) (c m : Nat) (h : m ∈ s.rayIndices c) : m < s.rays := by
  unfold Sample.rayIndices at h
  split at h
  · next hc =>
    have : c < 2 := lt_of_lt_of_le hc (min_le_left _ _)
    interval_cases c <;> simp [subclusters] at h <;> omega
  · exact List.mem_range.mp h

theorem plan_one (s : Sample) (d : ℝ) (hd : s.delays = [d]) (hr : 20 ≤ s.rays) : s.plan = .ok s.schedule := by
  unfold Sample.plan
  rw [if_neg]
  · congr 1
    have hn : s.numSplit = 1 := by simp [Sample.numSplit, hd]
    simp [Sample.numVirtual, Sample.schedule, Sample.virtualDelays, Sample.rayIndices, hn, hd, clusterOf, used,
      subclusters, List.range_succ]
  · simp only [List.any_eq_true, decide_eq_true_eq, not_exists, not_and, not_le]
    exact fun i _ m hm => indices_lt s hr _ m hm

theorem plan_many (s : Sample) (d e : ℝ) (l : List ℝ) (hd : s.delays = d :: e :: l) (hr : 20 ≤ s.rays) :
    s.plan = .ok s.schedule := by
  unfold Sample.plan
  rw [if_neg]
  · congr 1
    have hn : s.numSplit = 2 := by simp [Sample.numSplit, hd]
    have hv : s.numVirtual = 6 + l.length := by simp [Sample.numVirtual, hn, hd]
    have hl : s.delays.length = 2 + l.length := by simp [hd]; omega
    unfold Sample.schedule
    rw [hv, hl, List.range_add, List.range_add, List.flatMap_append, List.flatMap_append]
    congr 1
    · simp [Sample.virtualDelays, Sample.rayIndices, hn, hd, clusterOf, used, subclusters, List.range_succ]
    · rw [List.flatMap_map, List.flatMap_map]
      refine List.flatMap_congr fun i _ => ?_
      have h1 : clusterOf (6 + i) = 2 + i := by simp [clusterOf]; omega
      have h2 : s.rayIndices (2 + i) = List.range s.rays := by
        unfold Sample.rayIndices
        rw [if_neg (by omega)]
      have h3 : s.virtualDelays.getD (6 + i) 0 = s.delays.getD (2 + i) 0 := by
        have e1 : 6 + i = i + 1 + 1 + 1 + 1 + 1 + 1 := by omega
        have e2 : 2 + i = i + 1 + 1 := by omega
        rw [e1, e2]
        simp [Sample.virtualDelays, hn, hd]
      have h4 : used s.rays (2 + i) = (List.range s.rays).map fun (m : Nat) => (m, (0 : ℝ)) := by
        unfold used
        rw [if_neg (by omega), if_neg (by omega)]
      rw [h1, h2, h3, h4, List.map_map]
      refine List.map_congr_left fun m _ => ?_
      simp
  · simp only [List.any_eq_true, decide_eq_true_eq, not_exists, not_and, not_le]
    exact fun i _ m hm => indices_lt s hr _ m hm

theorem plan_eq (s : Sample) (hd : s.delays ≠ []) (hr : 20 ≤ s.rays) : s.plan = .ok s.schedule := by
  rcases h : s.delays with _ | ⟨d, _ | ⟨e, l⟩⟩
  · exact absurd h hd
  · exact plan_one s d h hr
  · exact plan_many s d e l h hr

end Verif.Cdl
