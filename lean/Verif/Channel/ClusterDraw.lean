import Verif.Channel.Cluster

/-!
# C119: how cluster delay line channels draw their samples

`ClusterDelayLineRealization`, `hermespy/channel/cdl/cluster_delay_lines.py` 965-2032.  What the scenarios
define (abstract methods of the class) and all random numbers are arguments: arbitrary functions.  Floating
point numbers are idealised as real numbers.
-/

namespace Verif.CdlDraw

open Verif Verif.Core
open Verif.Cdl (Sample)
open Verif.RadarChannel (Dev light maxOf)

/-- `LargeScaleState`, channel/cdl/cluster_delay_lines.py 759-815, by its integer value: zero is line of
sight, one is no line of sight, and two is outdoor to indoor.  Members of both enumerations compare as
integers. -/
abbrev State := Nat

/-- `line_of_sight`, channel/cdl/cluster_delay_lines.py 786-788 and 809-811, and `state == LOSState.LOS`,
1729 and 1810. -/
def State.los (s : State) : Bool := s == 0

/-- `ClusterDelayLineSampleParameters`, channel/cdl/cluster_delay_lines.py 822-862. -/
structure Link where
  fc : ℝ
  d3 : ℝ
  d2 : ℝ
  base : ℝ
  terminal : ℝ

/-- The abstract methods of a realization, channel/cdl/cluster_delay_lines.py 1116-1398.  Means and standard
deviations of the large scale parameters are indexed in the order of lines 1415-1438, of which the last is
the shadow fading of zero mean and unit deviation. -/
structure Scenario where
  mean : State → Link → Nat → ℝ
  std : State → Link → Nat → ℝ
  scaling : State → ℝ
  xprMean : State → ℝ
  xprStd : State → ℝ
  shadowStd : State → ℝ
  num : State → Nat
  aodSpread : State → ℝ
  aoaSpread : State → ℝ
  zoaSpread : State → ℝ
  zodOffset : State → Link → ℝ
  loss : State → Link → ℝ
  choose : ℝ → Link → State

/-- Samples of the random variables of the small scale parameters, channel/cdl/cluster_delay_lines.py
2142-2151: standard normal numbers, and uniform ones for delays and phases. -/
structure Draws where
  shadow : List ℝ
  delay : List ℝ
  azimuth : Nat → ℝ
  zenith : Nat → ℝ
  xpr : Nat → Nat → ℝ
  phase : Nat → Nat → Nat → Nat → ℝ

/-- `ClusterDelayLineRealization`, channel/cdl/cluster_delay_lines.py 1059-1105.  Spatially consistent
variables (C74) are functions of both positions, `small` those of the realization of a state.  `lsp` is
indexed by state, `coupling` by angle, cluster and ray. -/
structure Realization where
  scenario : Scenario
  expected : Option State
  uniform : Vec3 → Vec3 → ℝ
  small : State → Vec3 → Vec3 → Draws
  lsp : Nat → Nat → ℝ
  azimuthSign : Nat → ℝ
  zenithSign : Nat → ℝ
  coupling : Nat → Nat → Nat → Nat
  tof : Bool
  oxygen : Bool
  gain : ℝ

/-! ### Large scale parameters -/

/-- Result of `_sample_large_scale_parameters`. -/
structure LargeScale where
  ds : ℝ
  asd : ℝ
  asa : ℝ
  zsa : ℝ
  zsd : ℝ
  k : ℝ
  sf : ℝ

/-- `_sample_large_scale_parameters`, channel/cdl/cluster_delay_lines.py 1400-1452. -/
noncomputable def largeScale (mean std z : Nat → ℝ) : LargeScale :=
  let s : Nat → ℝ := fun i => mean i + std i * z i
  ⟨(10 : ℝ) ^ s 0, min ((10 : ℝ) ^ s 1) 104, min ((10 : ℝ) ^ s 2) 104, min ((10 : ℝ) ^ s 3) 52,
    min ((10 : ℝ) ^ s 4) 52, s 5, s 6⟩

/-! ### Delays and powers -/

/-- `rice_scale`, channel/cdl/cluster_delay_lines.py 1508-1510. -/
noncomputable def riceScale (k : ℝ) : ℝ := 0.775 - 0.0433 * k + 2e-4 * k ^ 2 + 17e-5 * k ^ 3

/-- `_cluster_delays`, channel/cdl/cluster_delay_lines.py 1454-1515: raw and scaled delays and the minimal
delay. -/
noncomputable def clusterDelays (r ds k : ℝ) (los : Bool) (num : Nat) (x : List ℝ) :
    Except PyErr (List ℝ × List ℝ × ℝ) :=
  let sorted := ((x.take num).map fun u => -r * ds * Real.log u).insertionSort (· ≤ ·)
  match sorted with
  | [] => .error .index
  | m :: _ =>
    let raw := sorted.map fun d => d - m
    .ok (if los then (raw, raw.map fun d => d / riceScale k, 0) else (raw, raw, m))

/-- Powers before they are normalized, channel/cdl/cluster_delay_lines.py 1552-1561. -/
noncomputable def profile (r ds std : ℝ) (num : Nat) (delays shadow : List ℝ) : List ℝ :=
  List.zipWith (fun d n => Real.exp (-d * (r - 1) / (r * ds)) * (10 : ℝ) ^ (-0.1 * (0 + std * n))) delays
    (shadow.take num)

/-- Normalized powers, channel/cdl/cluster_delay_lines.py 1563-1572.  In line of sight, the first one is
raised. -/
noncomputable def normalized (k : ℝ) (los : Bool) (p : List ℝ) : Except PyErr (List ℝ) :=
  if los then
    let lin : ℝ := (10 : ℝ) ^ (k / 10)
    match p.map fun x => x / ((1 + lin) * p.sum) with
    | [] => .error .index
    | q :: qs => .ok ((q + lin / (1 + lin)) :: qs)
  else .ok (p.map fun x => x / p.sum)

/-- Elimination of weak clusters, channel/cdl/cluster_delay_lines.py 1574-1576. -/
noncomputable def cutoff (p : List ℝ) : Except PyErr (List ℝ) :=
  match p with
  | [] => .error .index
  | q :: _ => .ok (p.filter fun x => decide (q * (10 : ℝ) ^ (-25 / 10 : ℝ) ≤ x))

/-- `_cluster_powers`, channel/cdl/cluster_delay_lines.py 1517-1578. -/
noncomputable def clusterPowers (r ds k std : ℝ) (los : Bool) (num : Nat) (delays shadow : List ℝ) :
    Except PyErr (List ℝ) :=
  match normalized k los (profile r ds std num delays shadow) with
  | .error e => .error e
  | .ok p => cutoff p

/-! ### Angles -/

/-- `__azimuth_scaling_factors`, channel/cdl/cluster_delay_lines.py 970-986. -/
noncomputable def azimuthTable : List (Nat × ℝ) :=
  [(4, 0.779), (5, 0.86), (8, 1.018), (10, 1.090), (11, 1.123), (12, 1.146), (14, 1.19), (15, 1.211),
    (16, 1.226), (19, 1.273), (20, 1.289), (25, 1.358)]

/-- `__zenith_scaling_factors`, channel/cdl/cluster_delay_lines.py 990-1002. -/
noncomputable def zenithTable : List (Nat × ℝ) :=
  [(8, 0.889), (10, 0.957), (11, 1.031), (12, 1.104), (15, 1.1088), (19, 1.184), (20, 1.178), (25, 1.282)]

/-- `_ray_offset_angles`, channel/cdl/cluster_delay_lines.py 1006-1030. -/
noncomputable def offsets : List ℝ :=
  [0.0447, -0.0447, 0.1413, -0.1413, 0.2492, -0.2492, 0.3715, -0.3715, 0.5129, -0.5129, 0.6797, -0.6797,
    0.8844, -0.8844, 1.1481, -1.1481, 1.5195, -1.5195, 2.1551, -2.1551]

/-- The row of a table `np.argmin(np.abs(table[:, 0] - n))` selects: the first closest. -/
def closest (n : Nat) : List (Nat × ℝ) → Nat × ℝ
  | [] => (0, 0)
  | [e] => e
  | e :: f :: l =>
    let b := closest n (f :: l)
    if Int.natAbs ((e.1 : ℤ) - n) ≤ Int.natAbs ((b.1 : ℤ) - n) then e else b

/-- `angle_scale`, channel/cdl/cluster_delay_lines.py 1622-1630. -/
noncomputable def azimuthScale (k : ℝ) (los : Bool) (n : Nat) : ℝ :=
  (closest n azimuthTable).2 * if los then 1.1035 - 0.028 * k - 2e-3 * k ^ 2 + 1e-4 * k ^ 3 else 1

/-- `zenith_scaling_factor`, channel/cdl/cluster_delay_lines.py 1702-1710 and 1780-1788. -/
noncomputable def zenithScale (k : ℝ) (los : Bool) (n : Nat) : ℝ :=
  (closest n zenithTable).2 * if los then 1.3086 + 0.0339 * k - 0.0077 * k ^ 2 + 2e-4 * k ^ 3 else 1

/-- The line of sight term, channel/cdl/cluster_delay_lines.py 1645-1651, 1728-1733 and 1809-1814. -/
def centre (los : Bool) (direct : ℝ) (a : Nat → ℝ) (c : Nat) : ℝ :=
  if los then a c + (direct - a 0) else a c + direct

/-- `_ray_azimuth_angles`, channel/cdl/cluster_delay_lines.py 1580-1662, without the ray offsets of the last
lines: angles of the clusters.  `width` is the spread in degrees. -/
noncomputable def azimuths (k : ℝ) (los : Bool) (p : List ℝ) (width : ℝ) (sign noise : Nat → ℝ) (direct : ℝ) :
    Nat → ℝ :=
  centre los direct fun c =>
    sign c * (2 * width / 1.4 / azimuthScale k los p.length * Real.sqrt (-Real.log (p.getD c 0 / maxOf p))) +
      width / 7 * noise c

/-- `_ray_zoa`, channel/cdl/cluster_delay_lines.py 1664-1740, and `_ray_zod`, 1742-1822, without the ray
offsets of the last lines: angles of the clusters.  There is no `offset` at arrivals. -/
noncomputable def zeniths (k : ℝ) (los : Bool) (p : List ℝ) (width : ℝ) (sign noise : Nat → ℝ)
    (offset direct : ℝ) : Nat → ℝ :=
  centre los direct fun c =>
    sign c * (-width * Real.log (p.getD c 0 / maxOf p) / zenithScale k los p.length) +
      (0 + width / 7 * noise c) + offset

/-- Ray angles in radians, coupled at random, channel/cdl/cluster_delay_lines.py 1653-1662, 1735-1740,
1816-1822 and 1886-1949: `width` is the spread of the rays of a cluster.  There are twenty rays in all scenarios. -/
noncomputable def rays (angles : Nat → ℝ) (width : ℝ) (index : Nat → Nat → Nat) (c m : Nat) : ℝ :=
  Real.pi / 180 * (angles c + width * offsets.getD (index c m) 0)

/-- Azimuth and zenith of one device in the coordinates of another, in degrees,
channel/cdl/cluster_delay_lines.py 1868-1877, and the conversions of lines 1896, 1909, 1923 and 1930. -/
noncomputable def direct (pose : Mat4) (own other : Vec3) : Except PyErr (ℝ × ℝ) :=
  match invert pose with
  | .error e => .error e
  | .ok inv =>
    match fromCartesian (rotateDirection inv (other - own)) true with
    | .error e => .error e
    | .ok d => .ok (180 * (toSpherical d).1 / Real.pi, 180 * (toSpherical d).2 / Real.pi)

/-! ### Losses -/

/-- `np.interp` of a single number: right of the last and left of the first sampling point the boundary
values, checked in this order; in between linear interpolation of the first interval containing it.  The
sampling points are not checked to increase. -/
noncomputable def interp (x : ℝ) (xp fp : List ℝ) : ℝ :=
  if xp.getLastD 0 < x then fp.getLastD 0
  else if x < xp.headD 0 then fp.headD 0
  else
    match ((xp.zip fp).zip (xp.zip fp).tail).find? fun e => decide (e.1.1 ≤ x ∧ x ≤ e.2.1) with
    | some e => e.1.2 + (e.2.2 - e.1.2) / (e.2.1 - e.1.1) * (x - e.1.1)
    | none => fp.getLastD 0

/-- `__oxygen_loss`, channel/cdl/cluster_delay_lines.py 1036-1057: rows of frequency in gigahertz and loss in
decibel per kilometre. -/
noncomputable def oxygenTable : List (List ℝ) :=
  [[52.0, 0.0], [53.0, 1.0], [54.0, 2.0], [55.0, 4.0], [65.0, 6.6], [75.0, 9.7], [58.0, 12.6], [59.0, 14.6],
    [60.0, 15.0], [61.0, 14.6], [62.0, 14.3], [63.0, 10.5], [64.0, 6.8], [65.0, 3.9], [66.0, 1.9], [67.0, 1.0],
    [68.0, 0.0]]

/-- `oxygen_loss`, channel/cdl/cluster_delay_lines.py 1980-1994, of a cluster. -/
noncomputable def oxygenLoss (on : Bool) (fc d3 least delay : ℝ) : ℝ :=
  if on then
    (10 : ℝ) ^ (-1e-2 * interp (fc * 1e-9) (oxygenTable.getD 0 []) (oxygenTable.getD 1 []) *
      (d3 + light * (delay + least)))
  else 1

/-- `polarization_transformations`, channel/cdl/cluster_delay_lines.py 1951-1966. -/
noncomputable def jones (mean std : ℝ) (d : Draws) (p q c m : Nat) : ℂ :=
  Complex.exp (2 * Complex.I * Real.pi * (d.phase p q c m : ℝ)) *
    if p = q then 1 else (((10 : ℝ) ^ (-0.05 * (mean + std * d.xpr c m)) : ℝ) : ℂ)

/-! ### Samples -/

/-- Distances and heights, channel/cdl/cluster_delay_lines.py 1826-1840. -/
noncomputable def link (fc : ℝ) (tx rx : Vec3) : Link :=
  ⟨fc, norm3 (tx - rx), Real.sqrt ((tx 0 - rx 0) ^ 2 + (tx 1 - rx 1) ^ 2), max (tx 2) (rx 2), min (tx 2) (rx 2)⟩

/-- The large scale state, channel/cdl/cluster_delay_lines.py 1848-1858. -/
noncomputable def Realization.state (r : Realization) (lk : Link) (tx rx : Vec3) : State :=
  match r.expected with
  | some s => s
  | none => r.scenario.choose (r.uniform tx rx) lk

/-- A device, its pose being that of its position. -/
structure End where
  dev : Dev
  pose : Mat4

/-- The sample of given delays and powers, channel/cdl/cluster_delay_lines.py 1883-2013: `a` and `b` are the
angles of the line of sight at both devices. -/
noncomputable def Realization.build (r : Realization) (tx rx : Dev) (bw : ℝ) (lk : Link) (st : State) (d : Draws)
    (g : LargeScale) (a b : ℝ × ℝ) (scaled : List ℝ) (least : ℝ) (p : List ℝ) : Sample :=
  let delays := scaled.take p.length
  { los := st.los
    rice := g.k
    aoa := rays (azimuths g.k st.los p g.asa r.azimuthSign d.azimuth b.1) (r.scenario.aoaSpread st) (r.coupling 0)
    zoa := rays (zeniths g.k st.los p g.zsa r.zenithSign d.zenith 0 b.2) (r.scenario.zoaSpread st) (r.coupling 1)
    aod := rays (azimuths g.k st.los p g.asd r.azimuthSign d.azimuth a.1) (r.scenario.aodSpread st) (r.coupling 2)
    zod := rays (zeniths g.k st.los p g.zsd r.zenithSign d.zenith (r.scenario.zodOffset st lk) a.2)
      (3 / 8 * (10 : ℝ) ^ r.scenario.mean st lk 4) (r.coupling 3)
    rays := 20
    offset := if r.tof then lk.d3 / light else 0
    delays := delays
    spread := g.ds
    powers := fun c => p.getD c 0 * (10 : ℝ) ^ (-r.scenario.loss st lk / 10) *
      (r.gain * oxygenLoss r.oxygen lk.fc lk.d3 least (delays.getD c 0)) ^ 2
    jones := jones (r.scenario.xprMean st) (r.scenario.xprStd st) d
    tx := tx
    rx := rx
    fc := lk.fc
    bw := bw }

/-- `_sample`, channel/cdl/cluster_delay_lines.py 1824-2013. -/
noncomputable def Realization.sample (r : Realization) (tx rx : End) (fc bw : ℝ) : Except PyErr Sample :=
  let lk := link fc tx.dev.pos rx.dev.pos
  if lk.d3 = 0 then .error .runtime
  else
    let st := r.state lk tx.dev.pos rx.dev.pos
    let d := r.small st tx.dev.pos rx.dev.pos
    let g := largeScale (r.scenario.mean st lk) (r.scenario.std st lk) (r.lsp st)
    match direct tx.pose tx.dev.pos rx.dev.pos with
    | .error e => .error e
    | .ok a =>
      match direct rx.pose rx.dev.pos tx.dev.pos with
      | .error e => .error e
      | .ok b =>
        match clusterDelays (r.scenario.scaling st) g.ds g.k st.los (r.scenario.num st) d.delay with
        | .error e => .error e
        | .ok (raw, scaled, least) =>
          match clusterPowers (r.scenario.scaling st) g.ds g.k (r.scenario.shadowStd st) st.los (r.scenario.num st)
              raw d.shadow with
          | .error e => .error e
          | .ok p => .ok (r.build tx.dev rx.dev bw lk st d g a b scaled least p)

open Classical in
/-- `_reciprocal_sample`, channel/cdl/cluster_delay_lines.py 2015-2032, and `reciprocal`, 732-756. -/
noncomputable def Realization.reciprocal (r : Realization) (s : Sample) (tx rx : End) (fc bw : ℝ) :
    Except PyErr Sample :=
  if bw ≠ s.bw ∨ fc ≠ s.fc then r.sample tx rx fc bw
  else if tx.dev.pos ≠ s.rx.pos ∨ rx.dev.pos ≠ s.tx.pos then r.sample tx rx fc bw
  else .ok { s.reciprocal with tx := tx.dev, rx := rx.dev }

end Verif.CdlDraw
