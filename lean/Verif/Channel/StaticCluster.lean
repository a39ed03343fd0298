import Verif.Channel.ClusterDraw

/-!
# C121: static cluster delay lines

`hermespy/channel/cdl/cdl.py`: link level models with fixed clusters.  Floating point numbers are idealised as real and
complex numbers, the constants of the tables being rational.  The spatially consistent phases (C74) are functions of both
positions.
-/

namespace Verif.CdlStatic

open Verif Verif.Core
open Verif.RadarChannel (Dev)
open Verif.Cdl (Sample)
open Verif.CdlDraw (rays)

/-- `CDLType`, channel/cdl/cdl.py 24-31. -/
inductive Kind
  | A | B | C | D | E
  deriving DecidableEq

/-- `CDL_Cluster_Parameters[CDLType.A]`, channel/cdl/cdl.py 39-66: delay, power in decibel, azimuths of departure and
arrival, zeniths of departure and arrival in degrees. -/
def tableA : List (List ℚ) :=
  [[0, -67 / 5, -1781 / 10, 513 / 10, 251 / 5, 627 / 5],
   [3819 / 10000, 0, -21 / 5, -1527 / 10, 466 / 5, 913 / 10],
   [161 / 400, -11 / 5, -21 / 5, -1527 / 10, 466 / 5, 913 / 10],
   [1467 / 2500, -4, -21 / 5, -1527 / 10, 466 / 5, 913 / 10],
   [461 / 1000, -6, 451 / 5, 383 / 5, 122, 94],
   [43 / 80, -41 / 5, 451 / 5, 383 / 5, 122, 94],
   [1677 / 2500, -99 / 10, 451 / 5, 383 / 5, 122, 94],
   [23 / 40, -21 / 2, 243 / 2, -9 / 5, 751 / 5, 471 / 10],
   [3809 / 5000, -15 / 2, -817 / 10, -419 / 10, 276 / 5, 56],
   [123 / 80, -159 / 10, 792 / 5, 471 / 5, 132 / 5, 301 / 10],
   [9489 / 5000, -33 / 5, -83, 519 / 10, 632 / 5, 294 / 5],
   [11121 / 5000, -167 / 10, 674 / 5, -1159 / 10, 858 / 5, 26],
   [10859 / 5000, -62 / 5, -153, 133 / 5, 757 / 5, 246 / 5],
   [12471 / 5000, -76 / 5, -172, 383 / 5, 786 / 5, 1431 / 10],
   [25119 / 10000, -54 / 5, -1299 / 10, -7, 236 / 5, 587 / 5],
   [15291 / 5000, -113 / 10, -136, -23, 202 / 5, 1227 / 10],
   [4081 / 1000, -127 / 10, 827 / 5, -236 / 5, 433 / 10, 616 / 5],
   [44579 / 10000, -81 / 5, 742 / 5, 552 / 5, 809 / 5, 163 / 5],
   [9139 / 2000, -183 / 10, 1327 / 10, 289 / 2, 54 / 5, 136 / 5],
   [23983 / 5000, -189 / 10, -593 / 5, 1553 / 10, 167 / 10, 76 / 5],
   [25033 / 5000, -83 / 5, -1541 / 10, 102, 1717 / 10, 146],
   [53043 / 10000, -199 / 10, 253 / 2, -759 / 5, 227 / 10, 1507 / 10],
   [48293 / 5000, -297 / 10, -281 / 5, 276 / 5, 1449 / 10, 1561 / 10]]

/-- `CDL_Cluster_Parameters[CDLType.B]`, channel/cdl/cdl.py 68-95: delay, power in decibel, azimuths of departure and
arrival, zeniths of departure and arrival in degrees. -/
def tableB : List (List ℚ) :=
  [[0, 0, 93 / 10, -1733 / 10, 529 / 5, 789 / 10],
   [67 / 625, -11 / 5, 93 / 10, -1733 / 10, 529 / 5, 789 / 10],
   [431 / 2000, -4, 93 / 10, -1733 / 10, 529 / 5, 789 / 10],
   [419 / 2000, -16 / 5, -341 / 10, 251 / 2, 1153 / 10, 633 / 10],
   [287 / 1000, -49 / 5, -327 / 5, -88, 1193 / 10, 599 / 10],
   [1493 / 5000, -6 / 5, -57 / 5, 1551 / 10, 516 / 5, 135 / 2],
   [469 / 1250, -17 / 5, -57 / 5, 1551 / 10, 516 / 5, 135 / 2],
   [1011 / 2000, -26 / 5, -57 / 5, 1551 / 10, 516 / 5, 135 / 2],
   [3681 / 10000, -38 / 5, -336 / 5, -449 / 5, 591 / 5, 413 / 5],
   [3697 / 10000, -3, 105 / 2, 1321 / 10, 102, 663 / 10],
   [57 / 100, -89 / 10, -72, -418 / 5, 502 / 5, 308 / 5],
   [5283 / 10000, -9, 743 / 10, 953 / 10, 983 / 10, 58],
   [11021 / 10000, -24 / 5, -261 / 5, 1037 / 10, 517 / 5, 391 / 5],
   [3189 / 2500, -57 / 10, -101 / 2, -439 / 5, 205 / 2, 82],
   [7737 / 5000, -15 / 2, 307 / 5, -185 / 2, 507 / 5, 312 / 5],
   [8921 / 5000, -19 / 10, 153 / 5, -1391 / 10, 103, 78],
   [20169 / 10000, -38 / 5, -145 / 2, -453 / 5, 100, 609 / 10],
   [14147 / 5000, -61 / 5, -453 / 5, 293 / 5, 576 / 5, 829 / 10],
   [30219 / 10000, -49 / 5, -388 / 5, -79, 201 / 2, 304 / 5],
   [36187 / 10000, -57 / 5, -413 / 5, 329 / 5, 598 / 5, 573 / 10],
   [41067 / 10000, -149 / 10, -518 / 5, 527 / 10, 1187 / 10, 599 / 10],
   [4279 / 1000, -46 / 5, 378 / 5, 887 / 10, 589 / 5, 601 / 10],
   [23917 / 5000, -113 / 10, -388 / 5, -302 / 5, 1157 / 10, 623 / 10]]

/-- `CDL_Cluster_Parameters[CDLType.C]`, channel/cdl/cdl.py 97-125: delay, power in decibel, azimuths of departure and
arrival, zeniths of departure and arrival in degrees. -/
def tableC : List (List ℚ) :=
  [[0, -22 / 5, -233 / 5, -101, 486 / 5, 438 / 5],
   [2099 / 10000, -6 / 5, -114 / 5, 120, 493 / 5, 721 / 10],
   [2219 / 10000, -7 / 2, -114 / 5, 120, 493 / 5, 721 / 10],
   [2329 / 10000, -26 / 5, -114 / 5, 120, 493 / 5, 721 / 10],
   [136 / 625, -5 / 2, -407 / 10, -255 / 2, 503 / 5, 701 / 10],
   [3183 / 5000, 0, 3 / 10, 852 / 5, 496 / 5, 753 / 10],
   [403 / 625, -11 / 5, 3 / 10, 852 / 5, 496 / 5, 753 / 10],
   [82 / 125, -39 / 10, 3 / 10, 852 / 5, 496 / 5, 753 / 10],
   [823 / 1250, -37 / 5, 731 / 10, 277 / 5, 526 / 5, 337 / 5],
   [1587 / 2000, -71 / 10, -129 / 2, 133 / 2, 953 / 10, 319 / 5],
   [8213 / 10000, -107 / 10, 401 / 5, -481 / 10, 1061 / 10, 357 / 5],
   [1167 / 1250, -111 / 10, -971 / 10, 469 / 10, 187 / 2, 121 / 2],
   [2457 / 2000, -51 / 10, -553 / 10, 681 / 10, 1037 / 10, 453 / 5],
   [13083 / 10000, -34 / 5, -643 / 10, -687 / 10, 521 / 5, 601 / 10],
   [2713 / 1250, -87 / 10, -157 / 2, 163 / 2, 93, 61],
   [5421 / 2000, -66 / 5, 1027 / 10, 307 / 10, 521 / 5, 1007 / 10],
   [42589 / 10000, -139 / 10, 496 / 5, -82 / 5, 949 / 10, 623 / 10],
   [46003 / 10000, -139 / 10, 444 / 5, 19 / 5, 931 / 10, 667 / 10],
   [27451 / 5000, -79 / 5, -1019 / 10, -137 / 10, 461 / 5, 529 / 10],
   [56077 / 10000, -171 / 10, 461 / 5, 97 / 10, 1067 / 10, 309 / 5],
   [12613 / 2000, -16, 933 / 10, 28 / 5, 93, 519 / 10],
   [33187 / 5000, -157 / 10, 533 / 5, 7 / 10, 929 / 10, 617 / 10],
   [70427 / 10000, -108 / 5, 239 / 2, -219 / 10, 526 / 5, 58],
   [86523 / 10000, -114 / 5, -619 / 5, 168 / 5, 539 / 5, 57]]

/-- `CDL_Cluster_Parameters[CDLType.D]`, channel/cdl/cdl.py 127-145: delay, power in decibel, azimuths of departure and
arrival, zeniths of departure and arrival in degrees. -/
def tableD : List (List ℚ) :=
  [[0, -1 / 5, 0, -180, 197 / 2, 163 / 2],
   [0, -27 / 2, 0, -180, 197 / 2, 163 / 2],
   [7 / 200, -94 / 5, 446 / 5, 446 / 5, 171 / 2, 869 / 10],
   [153 / 250, -21, 446 / 5, 446 / 5, 171 / 2, 869 / 10],
   [1363 / 1000, -114 / 5, 446 / 5, 446 / 5, 171 / 2, 869 / 10],
   [281 / 200, -179 / 10, 13, 163, 195 / 2, 397 / 5],
   [451 / 250, -201 / 10, 13, 163, 195 / 2, 397 / 5],
   [649 / 250, -219 / 10, 13, 163, 195 / 2, 397 / 5],
   [71 / 40, -229 / 10, 173 / 5, -137, 197 / 2, 391 / 5],
   [2021 / 500, -139 / 5, -129 / 2, 149 / 2, 442 / 5, 368 / 5],
   [7937 / 1000, -118 / 5, -329 / 10, 1277 / 10, 913 / 10, 783 / 10],
   [1178 / 125, -124 / 5, 263 / 5, -598 / 5, 519 / 5, 87],
   [2427 / 250, -30, -1321 / 10, -91 / 10, 803 / 10, 353 / 5],
   [501 / 40, -277 / 10, 386 / 5, -419 / 5, 173 / 2, 729 / 10]]

/-- `CDL_Cluster_Parameters[CDLType.E]`, channel/cdl/cdl.py 147-166: delay, power in decibel, azimuths of departure and
arrival, zeniths of departure and arrival in degrees. -/
def tableE : List (List ℚ) :=
  [[0, -3 / 100, 0, -180, 498 / 5, 402 / 5],
   [0, -2203 / 100, 0, -180, 498 / 5, 402 / 5],
   [5133 / 10000, -79 / 5, 115 / 2, 91 / 5, 521 / 5, 402 / 5],
   [68 / 125, -181 / 10, 115 / 2, 91 / 5, 521 / 5, 402 / 5],
   [563 / 1000, -99 / 5, 115 / 2, 91 / 5, 521 / 5, 402 / 5],
   [68 / 125, -229 / 10, -201 / 10, 509 / 5, 497 / 5, 404 / 5],
   [889 / 1250, -112 / 5, 81 / 5, 1129 / 10, 504 / 5, 863 / 10],
   [4773 / 2500, -93 / 5, 93 / 10, -311 / 2, 494 / 5, 827 / 10],
   [19293 / 10000, -104 / 5, 93 / 10, -311 / 2, 494 / 5, 827 / 10],
   [19589 / 10000, -113 / 5, 93 / 10, -311 / 2, 494 / 5, 827 / 10],
   [13213 / 5000, -223 / 10, 19, -1433 / 10, 504 / 5, 829 / 10],
   [2321 / 625, -128 / 5, 327 / 10, -947 / 10, 482 / 5, 88],
   [13631 / 2500, -101 / 5, 1 / 2, 147, 989 / 10, 81],
   [60017 / 5000, -149 / 5, 559 / 10, -181 / 5, 478 / 5, 443 / 5],
   [206419 / 10000, -146 / 5, 288 / 5, -26, 523 / 5, 783 / 10]]

/-- `CDL_Cluster_Parameters`, channel/cdl/cdl.py 35-167. -/
def Kind.table : Kind → List (List ℚ)
  | .A => tableA
  | .B => tableB
  | .C => tableC
  | .D => tableD
  | .E => tableE

/-- A row of `CDL_Per_Cluster_Parameters`: spreads of azimuths of departure and arrival, zeniths of departure and arrival,
the cross polarization ratio in decibel, and whether there is line of sight. -/
structure PerCluster where
  asd : ℚ
  asa : ℚ
  zsd : ℚ
  zsa : ℚ
  xpr : ℚ
  los : Bool

/-- `CDL_Per_Cluster_Parameters`, channel/cdl/cdl.py 170-178. -/
def Kind.per : Kind → PerCluster
  | .A => ⟨5, 11, 3, 3, 10, false⟩
  | .B => ⟨10, 22, 3, 7, 8, false⟩
  | .C => ⟨2, 15, 3, 7, 7, false⟩
  | .D => ⟨5, 8, 3, 3, 11, true⟩
  | .E => ⟨5, 11, 3, 7, 8, true⟩

/-- A column of the table, channel/cdl/cdl.py 231-236. -/
def Kind.column (k : Kind) (i : Nat) : List ℚ := k.table.map fun r => r.getD i 0

/-- `10 ** (x / 10)` of decibel. -/
noncomputable def linear (x : ℚ) : ℝ := (10 : ℝ) ^ ((x : ℝ) / 10)

/-- `CDLRealization`, channel/cdl/cdl.py 187-220.  `phase` are the phases of the polarizations in turns, `coupling` is
indexed by angle, cluster and ray. -/
structure Realization where
  kind : Kind
  rms : ℝ
  rice : ℝ
  coupling : Nat → Nat → Nat → Nat
  phase : Vec3 → Vec3 → Nat → Nat → Nat → Nat → ℝ
  gain : ℝ

/-- Angles of the rays of a column of the table, channel/cdl/cdl.py 249-275 and 289-292. -/
noncomputable def Realization.angles (r : Realization) (column : Nat) (width : ℚ) (axis : Nat) : Nat → Nat → ℝ :=
  rays (fun c => ((r.kind.column column).getD c 0 : ℝ)) width (r.coupling axis)

/-- `polarization_transformations`, channel/cdl/cdl.py 277-284. -/
noncomputable def Realization.jones (r : Realization) (a b : Vec3) (p q c m : Nat) : ℂ :=
  Complex.exp (2 * Complex.I * Real.pi * (r.phase a b p q c m : ℝ)) * if p = q then 1 else (linear r.kind.per.xpr : ℂ)

/-- `_sample`, channel/cdl/cdl.py 222-299. -/
noncomputable def Realization.sample (r : Realization) (tx rx : Dev) (fc bw : ℝ) : Sample where
  los := r.kind.per.los
  rice := r.rice
  aoa := r.angles 3 r.kind.per.asa 1
  zoa := r.angles 5 r.kind.per.zsa 3
  aod := r.angles 2 r.kind.per.asd 0
  zod := r.angles 4 r.kind.per.zsd 2
  rays := 20
  offset := 0
  delays := (r.kind.column 0).map fun (d : ℚ) => r.rms * d
  spread := r.rms
  powers := fun c => linear ((r.kind.column 1).getD c 0)
  jones := r.jones tx.pos rx.pos
  tx := tx
  rx := rx
  fc := fc
  bw := bw

/-- `_reciprocal_sample`, channel/cdl/cdl.py 301-304: `ClusterDelayLineSample.reciprocal` for the devices of the new
link. -/
def reciprocal (s : Sample) (tx rx : Dev) (fc bw : ℝ) : Sample :=
  { s.reciprocal with tx := tx, rx := rx, fc := fc, bw := bw }

/-- `CDL`, channel/cdl/cdl.py 340-387. -/
structure Line where
  kind : Kind
  rms : ℝ
  rice : ℝ
  decorrelation : ℝ
  gain : ℝ
  seed : Option Nat

open Classical in
/-- `rms_delay`, channel/cdl/cdl.py 406-411. -/
noncomputable def Line.setRms (l : Line) (x : ℝ) : Except PyErr Line := if x < 0 then .error .value else .ok { l with rms := x }

open Classical in
/-- `rayleigh_factor`, channel/cdl/cdl.py 424-429. -/
noncomputable def Line.setRice (l : Line) (x : ℝ) : Except PyErr Line := if x < 0 then .error .value else .ok { l with rice := x }

open Classical in
/-- `decorrelation_distance`, channel/cdl/cdl.py 442-447. -/
noncomputable def Line.setDecorrelation (l : Line) (x : ℝ) : Except PyErr Line :=
  if x < 0 then .error .value else .ok { l with decorrelation := x }

open Classical in
/-- `CDL.__init__`, channel/cdl/cdl.py 353-387, and `Channel.__init__`, channel/channel.py 742-763 and 816-821. -/
noncomputable def Line.make (kind : Kind) (rms rice decorrelation gain : ℝ) (seed : Option Nat) : Except PyErr Line :=
  if gain < 0 then .error .value
  else
    match (⟨kind, 0, 0, 0, gain, seed⟩ : Line).setRms rms with
    | .error e => .error e
    | .ok l =>
      match l.setRice rice with
      | .error e => .error e
      | .ok l => l.setDecorrelation decorrelation

/-- `_realize`, channel/cdl/cdl.py 449-471.  `draw` is what the random generator of a seed draws: permutations of the rays
and the phases the generator of the consistent variables realizes. -/
def Line.realize (l : Line) (draw : Option Nat → ℝ → (Nat → Nat → Nat → Nat) × (Vec3 → Vec3 → Nat → Nat → Nat → Nat → ℝ)) :
    Realization :=
  ⟨l.kind, l.rms, l.rice, (draw l.seed l.decorrelation).1, (draw l.seed l.decorrelation).2, l.gain⟩

/-- What `serialize` writes, channel/cdl/cdl.py 473-479. -/
structure Record where
  kind : Kind
  rms : ℝ
  rice : ℝ
  decorrelation : ℝ
  gain : ℝ

@[inherit_doc Record] def Line.serialize (l : Line) : Record := ⟨l.kind, l.rms, l.rice, l.decorrelation, l.gain⟩

/-- `Deserialize`, channel/cdl/cdl.py 481-492. -/
noncomputable def Record.deserialize (r : Record) : Except PyErr Line := Line.make r.kind r.rms r.rice r.decorrelation r.gain none

end Verif.CdlStatic
