import Verif.Channel.ClusterDraw
import Mathlib.Analysis.SpecialFunctions.Log.Base
import Mathlib.Analysis.SpecialFunctions.Trigonometric.Arctan

/-!
# C120: scenarios of cluster delay line channels

`hermespy/channel/cdl/urban_macrocells.py`, `urban_microcells.py`, `rural_macrocells.py`, `indoor_office.py` and
`indoor_factory.py`: path losses, probabilities of the line of sight, parameters of the distributions, and the
correlations of the large scale parameters (`cluster_delay_lines.py` 2214-2266).  Floating point numbers are idealised
as real numbers.  Carrier frequencies are positive.  States are numbered as in C119.  Indoor scenarios have no third
state: where the code would raise a `KeyError`, the model repeats the second one.
-/

namespace Verif.CdlScenario

open Verif
open Verif.CdlDraw (State Link Scenario)

/-- `log10`. -/
noncomputable def lg (x : ℝ) : ℝ := Real.logb 10 x

/-- Dictionaries indexed by states. -/
def tab (a b c : ℝ) (s : State) : ℝ :=
  match s with
  | 0 => a
  | 1 => b
  | _ => c

/-- Dictionaries of pairs: constants and slopes of parameters depending on the frequency. -/
def tab2 (a b c : ℝ × ℝ) (s : State) : ℝ × ℝ :=
  match s with
  | 0 => a
  | 1 => b
  | _ => c

/-- Order of the large scale parameters, channel/cdl/cluster_delay_lines.py 1415-1438. -/
def row (ds asd asa zsa zsd k sf : ℝ) (i : Nat) : ℝ :=
  match i with
  | 0 => ds
  | 1 => asd
  | 2 => asa
  | 3 => zsa
  | 4 => zsd
  | 5 => k
  | _ => sf

/-! ### Urban macrocells -/

/-- `_pathloss_dB`, channel/cdl/urban_macrocells.py 86-124. -/
noncomputable def macroLoss (s : State) (lk : Link) : ℝ :=
  if s = 2 then 0
  else
    let hB : ℝ := 25
    let hU : ℝ := max 1.5 (min 22.5 lk.terminal)
    let bp := 4 * (hB - 1) * (hU - 1) * lk.fc * 1e-8 / 3
    let los :=
      if lk.d2 < bp then 28 + 22 * lg lk.d3 + 20 * lg (lk.fc * 1e-9)
      else 28 + 40 * lg lk.d3 + 20 * lg (lk.fc * 1e-9) - 9 * lg (bp ^ 2 + (hB - hU) ^ 2)
    if s = 0 then los
    else max los (13.54 + 39.08 * lg lk.d3 + 20 * lg (lk.fc * 1e-9) - 0.6 * (hU - 1.5))

/-- `los_probability`, channel/cdl/urban_macrocells.py 137-139 and channel/cdl/urban_microcells.py 138-140. -/
noncomputable def urbanSight (lk : Link) : ℝ := 18 / lk.d3 + Real.exp (-lk.d3 / 36) * (1 - 18 / lk.d3)

open Classical in
/-- `_sample_large_scale_state` of urban scenarios, channel/cdl/urban_macrocells.py 134-144 and
channel/cdl/urban_microcells.py 135-142. -/
noncomputable def urbanChoose (u : ℝ) (lk : Link) : State := if u < urbanSight lk then 0 else 1

/-- `__parameter_dependency`, channel/cdl/urban_macrocells.py 146-165: constant first. -/
noncomputable def macroParam (fc : ℝ) (p : ℝ × ℝ) : ℝ := p.1 + p.2 * lg (max 6e9 fc * 1e-9)

/-- `_zod_spread_mean`, channel/cdl/urban_macrocells.py 385-399. -/
noncomputable def macroZod (s : State) (lk : Link) : ℝ :=
  max (-0.5) (-2.1 * lk.d2 / 1000) - 0.01 * (lk.terminal - 1.5) + tab 0.75 0.9 0.9 s

/-- `_zod_offset`, channel/cdl/urban_macrocells.py 413-430. -/
noncomputable def macroOffset (s : State) (lk : Link) : ℝ :=
  if s = 0 then 0
  else
    let fc := lg (max 6 (lk.fc * 1e-9))
    let a := 0.208 * fc - 0.782
    let b : ℝ := 25
    let c := -0.13 * fc + 2.03
    let e := 7.66 * fc - 5.96
    e - (10 : ℝ) ^ (a * lg (max b lk.d2) + c - 0.07 * (lk.terminal - 1.5))

/-- `UrbanMacrocellsRealization`, channel/cdl/urban_macrocells.py 167-430. -/
noncomputable def urbanMacro : Scenario where
  mean s lk := row (macroParam lk.fc (tab2 (-6.955, -0.0963) (-6.28, -0.204) (-6.62, 0) s))
    (macroParam lk.fc (tab2 (1.06, 0.1114) (1.5, -0.1114) (1.25, 0) s))
    (macroParam lk.fc (tab2 (1.81, 0) (2.08, -0.27) (1.76, 0) s))
    (macroParam lk.fc (tab2 (0.95, 0) (1.1512, -0.3236) (1.76, 0) s)) (macroZod s lk) 9 0
  std s _ := row (tab 0.66 0.39 0.32 s) (tab 0.28 0.28 0.42 s) (tab 0.20 0.11 0.16 s) (tab 0.16 0.16 0.43 s)
    (tab 0.4 0.49 0.49 s) 3.5 1
  scaling := tab 2.5 2.3 2.2
  xprMean := tab 8 7 9
  xprStd := tab 4 3 3
  shadowStd := tab 3 3 4
  num s := match s with
    | 0 => 12
    | 1 => 20
    | _ => 12
  aodSpread := tab 5 2 5
  aoaSpread := tab 11 15 8
  zoaSpread := tab 3 3 4
  zodOffset := macroOffset
  loss := macroLoss
  choose := urbanChoose

/-! ### Urban microcells -/

/-- `_pathloss_dB`, channel/cdl/urban_microcells.py 87-125. -/
noncomputable def microLoss (s : State) (lk : Link) : ℝ :=
  if s = 2 then 0
  else
    let hB : ℝ := 10
    let hU : ℝ := max 1.5 (min 22.5 lk.terminal)
    let bp := 4 * (hB - 1) * (hU - 1) * lk.fc * 1e-8 / 3
    let los :=
      if lk.d2 < bp then 32.4 + 21 * lg lk.d3 + 20 * lg (lk.fc * 1e-9)
      else 32.4 + 40 * lg lk.d3 + 20 * lg (lk.fc * 1e-9) - 9.5 * lg (bp ^ 2 + (hB - hU) ^ 2)
    if s = 0 then los
    else max los (35.3 * lg lk.d3 + 22.4 + 21.3 * lg (lk.fc * 1e-9) - 0.3 * (hU - 1.5))

/-- `__parameter_dependency`, channel/cdl/urban_microcells.py 144-163: slope first. -/
noncomputable def microParam (fc : ℝ) (p : ℝ × ℝ) : ℝ := p.1 * lg (1 + max 2e9 fc * 1e-9) + p.2

/-- `_zod_spread_mean`, channel/cdl/urban_microcells.py 390-404. -/
noncomputable def microZod (s : State) (lk : Link) : ℝ :=
  if s = 0 then max (-0.21) (-14.8 * lk.d2 / 1000) + 0.01 * |lk.terminal - lk.base| + 0.83
  else max (-0.5) (-3.1 * lk.d2 / 1000) + 0.01 * max (lk.terminal - lk.base) 0 + 0.2

/-- `_zod_offset`, channel/cdl/urban_microcells.py 411-416. -/
noncomputable def microOffset (s : State) (lk : Link) : ℝ :=
  if s = 0 then 0 else -(10 : ℝ) ^ (-1.5 * lg (max 10 lk.terminal) + 3.3)

/-- `UrbanMicrocellsRealization`, channel/cdl/urban_microcells.py 165-416. -/
noncomputable def urbanMicro : Scenario where
  mean s lk := row (microParam lk.fc (tab2 (-0.24, -7.14) (-0.24, -6.83) (0, -6.62) s))
    (microParam lk.fc (tab2 (-0.05, 1.21) (-0.23, 1.53) (0, 1.25) s))
    (microParam lk.fc (tab2 (-0.08, 1.73) (-0.08, 1.81) (0, 1.76) s))
    (microParam lk.fc (tab2 (-0.1, 0.73) (-0.04, 0.92) (0, 1.01) s)) (microZod s lk) 9 0
  std s lk := row (microParam lk.fc (tab2 (0, 0.38) (0.16, 0.28) (0, 0.32) s))
    (microParam lk.fc (tab2 (0, 0.41) (0.11, 0.33) (0, 0.42) s))
    (microParam lk.fc (tab2 (0.014, 0.28) (0.05, 0.3) (0, 0.16) s))
    (microParam lk.fc (tab2 (-0.04, 0.34) (-0.07, 0.41) (0, 0.43) s)) 0.35 5 1
  scaling := tab 3 2.1 2.2
  xprMean := tab 9 8 9
  xprStd := tab 3 3 5
  shadowStd := tab 3 3 4
  num s := match s with
    | 0 => 12
    | 1 => 19
    | _ => 12
  aodSpread := tab 3 10 5
  aoaSpread := tab 17 22 8
  zoaSpread := tab 7 7 3
  zodOffset := microOffset
  loss := microLoss
  choose := urbanChoose

/-! ### Rural macrocells -/

/-- `PL1`, channel/cdl/rural_macrocells.py 94-103. -/
noncomputable def ruralBefore (lk : Link) : ℝ :=
  20 * lg (40 * Real.pi * lk.d3 * lk.fc * 1e-9 / 3) + min (0.03 * (5 : ℝ) ^ (1.72 : ℝ)) 10 * lg lk.d3
    - min (0.044 * (5 : ℝ) ^ (1.72 : ℝ)) 14.77 + 0.002 * lg 5 * lk.d3

/-- `breakpoint_distance`, channel/cdl/rural_macrocells.py 92-93 and 107. -/
noncomputable def ruralBreak (lk : Link) : ℝ :=
  2 * Real.pi * min 150 (max 5 lk.base) * min 10 (max 1 lk.terminal) * lk.fc * 1e-8 / 3

/-- `_pathloss_dB`, channel/cdl/rural_macrocells.py 86-126. -/
noncomputable def ruralLoss (s : State) (lk : Link) : ℝ :=
  if s = 2 then 0
  else
    let hB : ℝ := min 150 (max 5 lk.base)
    let hU : ℝ := min 10 (max 1 lk.terminal)
    let los := if lk.d2 ≤ ruralBreak lk then ruralBefore lk else ruralBefore lk + 40 * lg (lk.d3 / ruralBreak lk)
    if s = 0 then los
    else max los (161.04 - 7.1 * lg 20 + 7.5 * lg 5 - (24.37 - 3.7 * (5 / hB) ^ 2) * lg hB
      + (43.42 - 3.1 * lg hB) * (lg lk.d3 - 3) + 20 * lg (lk.fc * 1e-9) - (3.2 * lg (11.75 * hU) ^ 2 - 4.97))

open Classical in
/-- `_sample_large_scale_state`, channel/cdl/rural_macrocells.py 136-145. -/
noncomputable def ruralChoose (u : ℝ) (lk : Link) : State := if u < Real.exp (-(lk.d2 - 10) / 1000) then 0 else 1

/-- `_zod_spread_mean`, channel/cdl/rural_macrocells.py 315-331. -/
noncomputable def ruralZod (s : State) (lk : Link) : ℝ :=
  if s = 0 then max (-1) (-0.17 * lk.d2 / 1000 - 0.01 * (lk.terminal - 1.5) + 0.22)
  else max (-1) (-0.19 * lk.d2 / 1000 - 0.01 * (lk.terminal - 1.5) + 0.28)

/-- `_zod_offset`, channel/cdl/rural_macrocells.py 345-353.  Links are not vertical: otherwise numpy divides by zero,
with the same result as the limit. -/
noncomputable def ruralOffset (s : State) (lk : Link) : ℝ :=
  if s = 0 then 0 else Real.arctan ((35 - 3.5) / lk.d2) - Real.arctan ((35 - 1.5) / lk.d2)

/-- `RuralMacrocellsRealization`, channel/cdl/rural_macrocells.py 147-353. -/
noncomputable def rural : Scenario where
  mean s lk := row (tab (-7.49) (-7.43) (-7.47) s) (tab 0.9 0.95 0.67 s) (tab 1.52 1.52 1.66 s) (tab 0.47 0.58 0.93 s)
    (ruralZod s lk) 7 0
  std s _ := row (tab 0.55 0.48 0.24 s) (tab 0.38 0.45 0.18 s) (tab 0.24 0.13 0.21 s) (tab 0.40 0.37 0.22 s)
    (tab 0.34 0.30 0.30 s) 4 1
  scaling := tab 3.8 1.7 1.7
  xprMean := tab 12 7 7
  xprStd := tab 4 3 3
  shadowStd _ := 3
  num s := match s with
    | 0 => 11
    | _ => 10
  aodSpread _ := 2
  aoaSpread _ := 3
  zoaSpread _ := 3
  zodOffset := ruralOffset
  loss := ruralLoss
  choose := ruralChoose

/-! ### Offices -/

/-- `_pathloss_dB`, channel/cdl/indoor_office.py 107-122. -/
noncomputable def officeLoss (s : State) (lk : Link) : ℝ :=
  let los := 32.4 + 17.3 * lg lk.d3 + 20 * lg (lk.fc * 1e-9)
  if s = 0 then los else max los (38.3 * lg lk.d3 + 17.3 + 24.9 * lg (lk.fc * 1e-9))

/-- `los_probability` of mixed and open offices, channel/cdl/indoor_office.py 134-147. -/
noncomputable def officeSight (open_ : Bool) (d2 : ℝ) : ℝ :=
  if open_ then
    if d2 ≤ 5 then 1
    else if d2 ≤ 49 then Real.exp (-(d2 - 5) / 70.8)
    else Real.exp (-(d2 - 49) / 211.7) * 0.54
  else
    if d2 ≤ 1.2 then 1
    else if d2 < 6.5 then Real.exp (-(d2 - 1.2) / 4.7)
    else Real.exp (-(d2 - 6.5) / 32.6) * 0.32

open Classical in
/-- `_sample_large_scale_state`, channel/cdl/indoor_office.py 130-152. -/
noncomputable def officeChoose (open_ : Bool) (u : ℝ) (lk : Link) : State := if u < officeSight open_ lk.d2 then 0 else 1

/-- `__parameter_dependency`, channel/cdl/indoor_office.py 154-173 and channel/cdl/indoor_factory.py 206-225: slope
first. -/
noncomputable def indoorParam (fc : ℝ) (p : ℝ × ℝ) : ℝ := p.1 * lg (1 + fc * 1e-9) + p.2

/-- `IndoorOfficeRealization`, channel/cdl/indoor_office.py 175-354. -/
noncomputable def office (open_ : Bool) : Scenario where
  mean s lk := row (indoorParam lk.fc (tab2 (-0.01, -7.629) (-0.28, -7.173) (-0.28, -7.173) s)) (tab 1.60 1.62 1.62 s)
    (indoorParam lk.fc (tab2 (-0.19, 1.781) (-0.11, 1.863) (-0.11, 1.863) s))
    (indoorParam lk.fc (tab2 (-0.26, 1.44) (-0.15, 1.387) (-0.15, 1.387) s))
    (if s = 0 then -1.43 * lg (1 + max 6 (lk.fc * 1e-9)) + 2.228 else 1.08) 7 0
  std s lk := row (indoorParam lk.fc (tab2 (0, 0.18) (0.1, 0.055) (0.1, 0.055) s)) (tab 0.18 0.25 0.25 s)
    (indoorParam lk.fc (tab2 (0.12, 0.119) (0.12, 0.059) (0.12, 0.059) s))
    (indoorParam lk.fc (tab2 (-0.04, 0.264) (-0.09, 0.746) (-0.09, 0.746) s))
    (if s = 0 then 0.13 * lg (1 + max 6 (lk.fc * 1e-9)) + 0.30 else 0.36) 4 1
  scaling := tab 3.6 3 3
  xprMean := tab 11 10 10
  xprStd _ := 4
  shadowStd := tab 6 3 3
  num s := match s with
    | 0 => 15
    | _ => 19
  aodSpread _ := 5
  aoaSpread := tab 8 11 11
  zoaSpread _ := 9
  zodOffset _ _ := 0
  loss := officeLoss
  choose := officeChoose open_

/-! ### Factories -/

/-- `FactoryType`, channel/cdl/indoor_factory.py 33-43. -/
inductive FactoryType
  | SL | SH | DL | DH | HH

/-- `clutter_size`, channel/cdl/indoor_factory.py 39-43. -/
def FactoryType.size : FactoryType → ℝ
  | .SL => 10
  | .SH => 10
  | .DL => 2
  | .DH => 2
  | .HH => 5

/-- `clutter_density`, channel/cdl/indoor_factory.py 39-43. -/
noncomputable def FactoryType.density : FactoryType → ℝ
  | .SL => 0.20
  | .SH => 0.20
  | .DL => 0.60
  | .DH => 0.60
  | .HH => 0

/-- `IndoorFactory`, channel/cdl/indoor_factory.py 413-530. -/
structure Factory where
  volume : ℝ
  surface : ℝ
  type : FactoryType
  clutter : ℝ

open Classical in
/-- `IndoorFactory.__init__` with its setters, channel/cdl/indoor_factory.py 466-469 and 482-530. -/
noncomputable def Factory.make (volume surface : ℝ) (type : FactoryType) (clutter : ℝ) : Except PyErr Factory :=
  if volume ≤ 0 then .error .value
  else if surface ≤ 0 then .error .value
  else if clutter < 0 ∨ 10 < clutter then .error .value
  else .ok ⟨volume, surface, type, clutter⟩

/-- `_pathloss_dB`, channel/cdl/indoor_factory.py 135-173. -/
noncomputable def factoryLoss (t : FactoryType) (s : State) (lk : Link) : ℝ :=
  let los := 31.84 + 21.5 * lg lk.d3 + 19 * lg (lk.fc / 1e9)
  if s = 0 then los
  else
    match t with
    | .SL => max los (33 + 25.5 * lg lk.d3 + 20 * lg (lk.fc / 1e9))
    | .DL => max los (18.6 + 35.7 * lg lk.d3 + 20 * lg (lk.fc / 1e9))
    | .SH => max los (32.4 + 23 * lg lk.d3 + 20 * lg (lk.fc / 1e9))
    | _ => max los (33.63 + 21.9 * lg lk.d3 + 20 * lg (lk.fc / 1e9))

open Classical in
/-- `los_probability`, channel/cdl/indoor_factory.py 186-203.  Terminals as high as the clutter divide by a negative
zero, which is infinite in numpy if the base is higher and no number otherwise. -/
noncomputable def Factory.sight (f : Factory) (lk : Link) : ℝ :=
  let low (t : FactoryType) : ℝ := -t.size / Real.log (1 - t.density)
  let high (t : FactoryType) : ℝ := -t.size * (lk.base - lk.terminal) / (Real.log (1 - t.density) * (f.clutter - lk.terminal))
  let p (k : ℝ) : ℝ := if 0 < k then Real.exp (-lk.d2 / k) else 0
  match f.type with
  | .HH => 1
  | .SL => p (low .SL)
  | .DL => p (low .DL)
  | t => if f.clutter = lk.terminal then (if lk.terminal < lk.base then 1 else 0) else p (high t)

open Classical in
/-- `_sample_large_scale_state`, channel/cdl/indoor_factory.py 181-204.  Its random numbers are less than one. -/
noncomputable def Factory.choose (f : Factory) (u : ℝ) (lk : Link) : State := if u < f.sight lk then 0 else 1

/-- `_delay_spread_mean`, channel/cdl/indoor_factory.py 229-236. -/
noncomputable def Factory.delaySpread (f : Factory) (s : State) : ℝ :=
  lg (tab 26 30 30 s * f.volume / f.surface + tab 14 32 32 s) + tab (-9.35) (-9.44) (-9.44) s

/-- `IndoorFactoryRealization`, channel/cdl/indoor_factory.py 227-385. -/
noncomputable def Factory.scenario (f : Factory) : Scenario where
  mean s lk := row (f.delaySpread s) (tab 1.56 1.57 1.57 s)
    (indoorParam lk.fc (tab2 (-0.18, 1.78) (0, 1.72) (0, 1.72) s))
    (indoorParam lk.fc (tab2 (-0.2, 1.5) (-0.13, 1.45) (-0.13, 1.45) s)) (tab 1.35 1.2 1.2 s) 7 0
  std s lk := row (tab 0.15 0.19 0.19 s) (tab 0.25 0.2 0.2 s)
    (indoorParam lk.fc (tab2 (0.12, 0.2) (0, 0.3) (0, 0.3) s)) (tab 0.35 0.45 0.45 s) (tab 0.35 0.5 0.5 s) 8 1
  scaling := tab 2.7 3 3
  xprMean := tab 12 11 11
  xprStd _ := 6
  shadowStd := tab 4 3 3
  num _ := 25
  aodSpread _ := 5
  aoaSpread _ := 8
  zoaSpread _ := 9
  zodOffset _ _ := 0
  loss := factoryLoss f.type
  choose := f.choose

/-! ### Correlations -/

/-- Rows of `_large_scale_correlations` of a state, in tables of channel/cdl/urban_macrocells.py 459-485,
channel/cdl/urban_microcells.py 453-479, channel/cdl/rural_macrocells.py 390-416, channel/cdl/indoor_office.py 449-475
and channel/cdl/indoor_factory.py 544-570: a list of states, transposed as in the code. -/
abbrev Table := List (List ℚ)

/-- `_large_scale_correlations`, channel/cdl/urban_macrocells.py 459-485. -/
def macroTable : Table :=
  [[2 / 5, 4 / 5, -1 / 2, -1 / 2, -2 / 5, 0, 0, -1 / 5, -2 / 5, 0, 0, -4 / 5, 0, 0, -1 / 5, 0, 1 / 2, 0, -3 / 10, 2 / 5, 0],
   [2 / 5, 3 / 5, 0, -3 / 5, -2 / 5, 2 / 5, 0, 0, 0, 0, 0, -2 / 5, 0, 0, -1 / 2, 0, 1 / 2, -1 / 10, 0, 0, 0],
   [2 / 5, 2 / 5, 0, 1 / 5, -1 / 2, 0, 0, 0, 0, 0, 0, 0, 0, 0, -3 / 5, -1 / 5, -1 / 5, 0, 0, 1 / 2, 1 / 2]]

/-- `_large_scale_correlations`, channel/cdl/urban_microcells.py 453-479. -/
def microTable : Table :=
  [[1 / 2, 4 / 5, -2 / 5, -1 / 2, -2 / 5, 2 / 5, -1 / 5, -3 / 10, -7 / 10, 1 / 2, 0, 0, 0, 0, 0, 1 / 5, 1 / 2, 3 / 10, 0, 0, 0],
   [0, 2 / 5, -2 / 5, 0, -7 / 10, 0, 0, 0, 0, 0, 0, 0, 0, 0, -1 / 2, 0, 1 / 2, 1 / 2, 0, 1 / 5, 0],
   [2 / 5, 2 / 5, 0, 1 / 5, -1 / 2, 0, 0, 0, 0, 0, 0, 0, 0, 0, -3 / 5, -1 / 5, -1 / 5, 0, 0, 1 / 2, 1 / 2]]

/-- `_large_scale_correlations`, channel/cdl/rural_macrocells.py 390-416. -/
def ruralTable : Table :=
  [[0, 0, 0, 0, -1 / 2, 0, 0, 0, 0, 0, 1 / 100, -17 / 100, 0, -1 / 50, -1 / 20, 27 / 100, 73 / 100, -7 / 50, -1 / 5, 6 / 25, -7 / 100],
   [-2 / 5, 0, 0, 3 / 5, -1 / 2, 0, 0, 0, 0, 0, -1 / 25, -1 / 4, 0, 0, -1 / 10, -2 / 5, 21 / 50, -27 / 100, -9 / 50, 13 / 50, -27 / 100],
   [0, 0, 0, 0, 0, -7 / 10, 0, 0, 0, 0, 0, 0, 0, 0, -3 / 5, 0, 33 / 50, 47 / 100, -11 / 20, -11 / 50, 0]]

/-- `_large_scale_correlations`, channel/cdl/indoor_office.py 449-475. -/
def officeTable : Table :=
  [[3 / 5, 4 / 5, -1 / 2, -2 / 5, -4 / 5, 2 / 5, 0, 0, -1 / 2, 1 / 2, 1 / 5, 3 / 10, 0, 1 / 10, 1 / 10, 1 / 5, 1 / 2, 0, 0, 1 / 2, 0],
   [2 / 5, 0, -2 / 5, 0, -1 / 2, 0, 0, 0, 0, 0, 0, 0, 0, 0, -27 / 100, -3 / 50, 7 / 20, 23 / 100, -2 / 25, 43 / 100, 21 / 50]]

/-- `_large_scale_correlations`, channel/cdl/indoor_factory.py 544-570. -/
def factoryTable : Table :=
  [[0, 0, 0, 0, 0, 0, -1 / 2, 0, -7 / 10, 0, 0, 0, 0, 0, 0, 0, 0, 0, 0, 0, 0],
   [0, 0, 0, 0, 0, 0, 0, 0, 0, 0, 0, 0, 0, 0, 0, 0, 0, 0, 0, 0, 0]]

/-- `C_MM_squared`, channel/cdl/cluster_delay_lines.py 2227-2239. -/
def square (c : List ℚ) : Fin 7 → Fin 7 → ℚ :=
  let C (i : Nat) : ℚ := c.getD i 0
  ![![1, C 0, C 1, C 15, C 14, C 8, C 4],
    ![C 0, 1, C 5, C 17, C 16, C 6, C 3],
    ![C 1, C 5, 1, C 19, C 18, C 7, C 2],
    ![C 15, C 17, C 19, 1, C 20, C 13, C 11],
    ![C 14, C 16, C 18, C 20, 1, C 12, C 10],
    ![C 8, C 6, C 7, C 13, C 12, 1, C 9],
    ![C 4, C 3, C 2, C 11, C 10, C 9, 1]]

abbrev Mat7 := Matrix (Fin 7) (Fin 7) ℝ

/-- Correlation matrix of real numbers. -/
def corr (c : List ℚ) : Mat7 := fun i j => (square c i j : ℝ)

/-- `__C_MM`, channel/cdl/cluster_delay_lines.py 2214-2245: roots by state.  `chol` is `np.linalg.cholesky`, and the
roots of missing states are uninitialised memory. -/
def roots (chol : Mat7 → Except PyErr Mat7) (memory : Nat → Mat7) : Table → Except PyErr (Nat → Mat7)
  | [] => .ok memory
  | c :: cs =>
    match chol (corr c) with
    | .error e => .error e
    | .ok L =>
      match roots chol (fun s => memory (s + 1)) cs with
      | .error e => .error e
      | .ok f => .ok fun s => match s with
        | 0 => L
        | s + 1 => f s

/-- `LSPs`, channel/cdl/cluster_delay_lines.py 2265-2266: large scale parameters by state. -/
def parameters (chol : Mat7 → Except PyErr Mat7) (memory : Nat → Mat7) (t : Table) (z : Fin 7 → ℝ) :
    Except PyErr (Nat → Fin 7 → ℝ) :=
  match roots chol memory t with
  | .error e => .error e
  | .ok f => .ok fun s => (f s).mulVec z

/-- `max_num_clusters` of urban macrocells, microcells, rural macrocells, offices and factories,
channel/cdl/urban_macrocells.py 488-489, channel/cdl/urban_microcells.py 442-443, channel/cdl/rural_macrocells.py
379-380, channel/cdl/indoor_office.py 428-429 and channel/cdl/indoor_factory.py 533-534. -/
def macroMax : Nat := 19
@[inherit_doc macroMax] def microMax : Nat := 19
@[inherit_doc macroMax] def ruralMax : Nat := 11
@[inherit_doc macroMax] def officeMax : Nat := 19
@[inherit_doc macroMax] def factoryMax : Nat := 25

end Verif.CdlScenario
