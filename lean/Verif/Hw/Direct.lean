import Verif.Sim.Links
import Verif.Sim.Triggers
import Mathlib.Tactic.Linarith
import Mathlib.Data.Rat.Defs
import Mathlib.Algebra.Order.Field.Rat

/-!
# Direct triggers of dummy scenarios and devices

`hermespy/hardware_loop/physical_device_dummy.py`: `PhysicalScenarioDummy._trigger_direct` and
`PhysicalDeviceDummy.trigger_direct`, with the check of `PhysicalScenario.trigger_direct` of
`hermespy/hardware_loop/scenario.py` (C138).

Devices and channels are identities, triggers the numbers of the calls that realized them (C38). What devices and
channel samples do is a parameter (C70, C84, C87, C88).
-/

namespace Verif.Direct

open Verif (PyErr)
open Verif.Sim (Scn channel key indexOf realizeTriggers)

variable {T X Y L B Re Sa : Type}

/-- What devices and channels do: `generate_output` of a single transmission with a trigger, `sample` and
`reciprocal_sample` at the carrier frequency and sampling rate of an output, `propagate`, `isolation.leak`, `process_input`
of impinging signals with an optional trigger and leaking signal, `remove_leakage` of a calibration if there is one. -/
structure Ops (T X Y L B Re Sa : Type) where
  emit : Nat → Nat → T → X
  sample : Re → Nat → Nat → X → Sa
  recip : Re → Sa → Nat → Nat → X → Sa
  prop : Sa → X → Y
  leak : Nat → T → L
  input : Nat → List (Option Y) → Option Nat → Option L → B
  calibrate : Nat → Option (T → B → B)
  own : T → Y
  silence : Nat → T → Y

/-- The realization of the channel linking two devices, `hardware_loop/physical_device_dummy.py` 374-375. -/
def realization (s : Scn) (reals : List Re) (a b : Nat) : Except PyErr Re :=
  match channel s a b with
  | .error e => .error e
  | .ok c => match indexOf s.channels c with
    | .error e => .error e
    | .ok i => match reals[i]? with
      | none => .error .index
      | some re => .ok re

/-- The body of the loop, `hardware_loop/physical_device_dummy.py` 373-400, for the devices at positions `p.1 ≤ p.2`. -/
def body (ops : Ops T X Y L B Re Sa) (s : Scn) (reals : List Re) (devs : List Nat) (outs : List X) (p : Nat × Nat)
    (mat : Nat → Nat → Option Y) : Except PyErr (Nat → Nat → Option Y) :=
  match devs[p.1]?, devs[p.2]?, outs[p.1]?, outs[p.2]? with
  | some a, some b, some xa, some xb =>
    match realization s reals a b with
    | .error e => .error e
    | .ok re =>
      let sa := ops.sample re a b xa
      let sb := ops.recip re sa b a xb
      let m1 := fun i j => if i = p.2 ∧ j = p.1 then some (ops.prop sa xa) else mat i j
      .ok fun i j => if i = p.1 ∧ j = p.2 then some (ops.prop sb xb) else m1 i j
  | _, _, _, _ => .error .index

/-- The pairs of positions in the order of the loops, `hardware_loop/physical_device_dummy.py` 369-372. -/
def pairs (n : Nat) : List (Nat × Nat) :=
  (List.range n).flatMap fun i => (List.range (n - i)).map fun k => (i, i + k)

/-- The loops. -/
def fill (ops : Ops T X Y L B Re Sa) (s : Scn) (reals : List Re) (devs : List Nat) (outs : List X) :
    List (Nat × Nat) → (Nat → Nat → Option Y) → Except PyErr (Nat → Nat → Option Y)
  | [], mat => .ok mat
  | p :: ps, mat => match body ops s reals devs outs p mat with
    | .error e => .error e
    | .ok mat' => fill ops s reals devs outs ps mat'

/-- `_trigger_direct`, `hardware_loop/physical_device_dummy.py` 342-408, behind the check of
`hardware_loop/scenario.py` 75-82; `model` are the trigger models of the devices, `reals` what `realize_channels` returns.
The flag `calibrate` is not used. -/
def triggerDirect (ops : Ops T X Y L B Re Sa) (s : Scn) (reals : List Re) (model : Nat → Nat) (devs : List Nat)
    (tx : List T) (_calibrate : Bool) : Except PyErr (List B) :=
  if tx.length ≠ devs.length then .error .value
  else
    let trig := (realizeTriggers (devs.map model)).device
    let outs := ((devs.zip tx).zip trig).map fun q => ops.emit q.1.1 q.2 q.1.2
    match fill ops s reals devs outs (pairs devs.length) fun _ _ => none with
    | .error e => .error e
    | .ok mat => .ok ((((List.range devs.length).zip devs).zip trig).map fun q =>
        ops.input q.1.2 ((List.range devs.length).map fun j => mat q.1.1 j) (some q.2) none)

/-- `PhysicalDeviceDummy.trigger_direct`, `hardware_loop/physical_device_dummy.py` 251-276. -/
def deviceDirect (ops : Ops T X Y L B Re Sa) (receiveTransmission : Bool) (d : Nat) (t : T) (calibrate : Bool) : B :=
  let y := if receiveTransmission then ops.own t else ops.silence d t
  let b := ops.input d [some y] none (some (ops.leak d t))
  match calibrate, ops.calibrate d with
  | true, some f => f t b
  | _, _ => b

/-! ## The loops -/

theorem mem_pairs (n i j : Nat) : (i, j) ∈ pairs n ↔ i ≤ j ∧ j < n := by
  unfold pairs
  simp only [List.mem_flatMap, List.mem_range, List.mem_map, Prod.mk.injEq]
  constructor
  · rintro ⟨a, ha, k, hk, rfl, rfl⟩
    omega
  · rintro ⟨h1, h2⟩
    exact ⟨i, by omega, j - i, by omega, rfl, by omega⟩

theorem fill_ok (ops : Ops T X Y L B Re Sa) (s : Scn) (reals : List Re) (devs : List Nat) (outs : List X)
    (F : Nat → Nat → Y) (l : List (Nat × Nat))
    (h : ∀ p ∈ l, ∀ mat, ∃ mat', body ops s reals devs outs p mat = .ok mat' ∧ ∀ i j, mat' i j =
      if i = p.1 ∧ j = p.2 then some (F i j) else if i = p.2 ∧ j = p.1 then some (F i j) else mat i j)
    (mat : Nat → Nat → Option Y) :
    ∃ mat', fill ops s reals devs outs l mat = .ok mat' ∧
      ∀ i j, ((i, j) ∈ l ∨ (j, i) ∈ l → mat' i j = some (F i j)) ∧
        (¬ ((i, j) ∈ l ∨ (j, i) ∈ l) → mat' i j = mat i j) := by
  induction l generalizing mat with
  | nil => exact ⟨mat, rfl, fun i j => ⟨fun h => by simp at h, fun _ => rfl⟩⟩
  | cons p l ih =>
    obtain ⟨m1, h1, hv1⟩ := h p (by simp) mat
    obtain ⟨m2, h2, hv2⟩ := ih (fun q hq => h q (by simp [hq])) m1
    refine ⟨m2, by unfold fill; rw [h1]; exact h2, fun i j => ?_⟩
    by_cases hl : (i, j) ∈ l ∨ (j, i) ∈ l
    · refine ⟨fun _ => (hv2 i j).1 hl, fun hn => absurd ?_ hn⟩
      rcases hl with hl | hl
      · exact Or.inl (List.mem_cons_of_mem _ hl)
      · exact Or.inr (List.mem_cons_of_mem _ hl)
    · rw [(hv2 i j).2 hl, hv1 i j]
      constructor
      · intro hm
        by_cases e1 : i = p.1 ∧ j = p.2
        · rw [if_pos e1]
        · rw [if_neg e1]
          by_cases e2 : i = p.2 ∧ j = p.1
          · rw [if_pos e2]
          · exfalso
            rcases hm with hm | hm
            · rcases List.mem_cons.mp hm with e | hm
              · exact e1 ⟨by rw [← e], by rw [← e]⟩
              · exact hl (Or.inl hm)
            · rcases List.mem_cons.mp hm with e | hm
              · exact e2 ⟨by rw [← e], by rw [← e]⟩
              · exact hl (Or.inr hm)
      · intro hn
        rw [if_neg fun e => hn (Or.inl (by rw [e.1, e.2]; exact List.mem_cons_self)),
          if_neg fun e => hn (Or.inr (by rw [e.1, e.2]; exact List.mem_cons_self))]

theorem body_ok (ops : Ops T X Y L B Re Sa) (s : Scn) (reals : List Re) (devs : List Nat) (outs : List X)
    (d : Nat → Nat) (x : Nat → X) (re : Nat → Nat → Re) (n : Nat)
    (hd : ∀ i < n, devs[i]? = some (d i)) (hx : ∀ i < n, outs[i]? = some (x i))
    (hre : ∀ i j, i ≤ j → j < n → realization s reals (d i) (d j) = .ok (re i j))
    (p : Nat × Nat) (hp : p.1 ≤ p.2) (hpn : p.2 < n) (mat : Nat → Nat → Option Y) :
    ∃ mat', body ops s reals devs outs p mat = .ok mat' ∧ ∀ i j, mat' i j =
      if i = p.1 ∧ j = p.2 then some (if j < i then ops.prop (ops.sample (re j i) (d j) (d i) (x j)) (x j)
        else ops.prop (ops.recip (re i j) (ops.sample (re i j) (d i) (d j) (x i)) (d j) (d i) (x j)) (x j))
      else if i = p.2 ∧ j = p.1 then some (if j < i then ops.prop (ops.sample (re j i) (d j) (d i) (x j)) (x j)
        else ops.prop (ops.recip (re i j) (ops.sample (re i j) (d i) (d j) (x i)) (d j) (d i) (x j)) (x j))
      else mat i j := by
  obtain ⟨u, v⟩ := p
  dsimp only at hp hpn ⊢
  unfold body
  dsimp only
  rw [hd u (by omega), hd v hpn, hx u (by omega), hx v hpn]
  dsimp only
  rw [hre u v hp hpn]
  refine ⟨_, rfl, fun i j => ?_⟩
  by_cases h1 : i = u ∧ j = v
  · obtain ⟨rfl, rfl⟩ := h1
    rw [if_pos ⟨rfl, rfl⟩, if_pos ⟨rfl, rfl⟩, if_neg (by omega : ¬ j < i)]
  · rw [if_neg h1, if_neg h1]
    by_cases h2 : i = v ∧ j = u
    · obtain ⟨rfl, rfl⟩ := h2
      have hlt : j < i := by
        rcases Nat.lt_or_ge j i with h | h
        · exact h
        · exact absurd ⟨by omega, by omega⟩ h1
      rw [if_pos ⟨rfl, rfl⟩, if_pos ⟨rfl, rfl⟩, if_pos hlt]
    · rw [if_neg h2, if_neg h2]

/-! ## Scenarios -/

/-- C138: a direct trigger of devices of the scenario, whichever and in whichever order, returns one signal per device.
It is what the device makes of the signals of all devices, in their order: the transmission of each, emitted at the
transmitting device's trigger, over the realization of the channel linking both, in the direction of the transmission; the
trigger of transmission and of reception is the same for all devices sharing a trigger model (C38). -/
theorem C138_trigger (ops : Ops T X Y L B Re Sa) (s : Scn) (reals : List Re) (model : Nat → Nat) (n : Nat)
    (d : Nat → Nat) (t : Nat → T) (re : Nat → Nat → Re) (calibrate : Bool)
    (hre : ∀ i j, i < n → j < n → realization s reals (d i) (d j) = .ok (re i j)) :
    ∃ g : Nat → Nat,
      (∀ i < n, ∀ j < n, g i = g j ↔ model (d i) = model (d j)) ∧
      triggerDirect ops s reals model ((List.range n).map d) ((List.range n).map t) calibrate =
        .ok ((List.range n).map fun i => ops.input (d i) ((List.range n).map fun j => some
          (if j < i then ops.prop (ops.sample (re j i) (d j) (d i) (ops.emit (d j) (g j) (t j))) (ops.emit (d j) (g j) (t j))
          else ops.prop (ops.recip (re i j) (ops.sample (re i j) (d i) (d j) (ops.emit (d i) (g i) (t i))) (d j) (d i)
            (ops.emit (d j) (g j) (t j))) (ops.emit (d j) (g j) (t j)))) (some (g i)) none) := by
  have hmap : ((List.range n).map d).map model = (List.range n).map fun i => model (d i) := by
    rw [List.map_map]; rfl
  obtain ⟨hlen, -, -, -⟩ := Verif.Sim.C38_one_per_device ((List.range n).map fun i => model (d i))
  have hlen' : (realizeTriggers ((List.range n).map fun i => model (d i))).device.length = n := by
    rw [hlen]; simp
  set trig := (realizeTriggers ((List.range n).map fun i => model (d i))).device with htrig
  have htl : trig = (List.range n).map fun i => trig.getD i 0 := by
    apply List.ext_getElem?
    intro i
    by_cases hi : i < n
    · rw [List.getElem?_map, List.getElem?_range hi]
      simp only [Option.map_some]
      rw [List.getD_eq_getElem?_getD, List.getElem?_eq_getElem (by omega)]
      rfl
    · rw [List.getElem?_eq_none (by omega), List.getElem?_eq_none (by simp; omega)]
  refine ⟨fun i => trig.getD i 0, fun i hi j hj => ?_, ?_⟩
  · have hs := Verif.Sim.C38_shared_iff ((List.range n).map fun i => model (d i)) i j (model (d i)) (model (d j))
      (by simp [hi]) (by simp [hj])
    rw [← hs, ← htrig]
    dsimp only
    rw [List.getD_eq_getElem?_getD, List.getD_eq_getElem?_getD,
      List.getElem?_eq_getElem (by omega : i < trig.length), List.getElem?_eq_getElem (by omega : j < trig.length)]
    simp
  · unfold triggerDirect
    rw [if_neg (by simp), hmap]
    dsimp only
    rw [← htrig]
    have houts : ((((List.range n).map d).zip ((List.range n).map t)).zip trig).map
        (fun q => ops.emit q.1.1 q.2 q.1.2) = (List.range n).map fun i => ops.emit (d i) (trig.getD i 0) (t i) := by
      conv_lhs => rw [htl]
      rw [List.zip_map', List.zip_map', List.map_map]
      rfl
    rw [houts]
    have hl : ((List.range n).map d).length = n := by simp
    rw [hl]
    obtain ⟨mat, hm, hv⟩ := fill_ok ops s reals ((List.range n).map d)
      ((List.range n).map fun i => ops.emit (d i) (trig.getD i 0) (t i)) _ (pairs n)
      (fun p hp => body_ok ops s reals _ _ d (fun i => ops.emit (d i) (trig.getD i 0) (t i)) re n
        (fun i hi => by simp [hi]) (fun i hi => by simp [hi]) (fun i j h1 h2 => hre i j (by omega) h2) p
        ((mem_pairs n p.1 p.2).mp hp).1 ((mem_pairs n p.1 p.2).mp hp).2) fun _ _ => none
    rw [hm]
    dsimp only
    congr 1
    have hz : ((List.range n).zip ((List.range n).map d)).zip trig =
        (List.range n).map fun i => ((i, d i), trig.getD i 0) := by
      conv_lhs => rw [htl]
      have h1 : (List.range n).zip ((List.range n).map d) = (List.range n).map fun i => (i, d i) := by
        conv_lhs => rw [← List.map_id (List.range n), List.map_map]
        rw [List.zip_map']
        rfl
      rw [h1, List.zip_map']
    rw [hz, List.map_map]
    refine List.map_congr_left fun i hi => ?_
    have hi' := List.mem_range.mp hi
    simp only [Function.comp]
    congr 1
    refine List.map_congr_left fun j hj => ?_
    have hj' := List.mem_range.mp hj
    refine (hv i j).1 ?_
    rcases Nat.le_total i j with h | h
    · exact Or.inl ((mem_pairs n i j).mpr ⟨h, hj'⟩)
    · exact Or.inr ((mem_pairs n j i).mpr ⟨h, hi'⟩)

/-- C138: the realization used between two devices of the scenario is the one of the channel linking them, in whichever order they are given; channels are
distinct, and there is one realization for each. -/
theorem C138_realization (s : Scn) (reals : List Re) (a b : Nat) (ha : a ∈ s.devices) (hb : b ∈ s.devices) (hd : s.channels.Nodup) (i : Nat)
    (hi : s.channels[i]? = some ((s.links (key a b)).getD s.dflt)) (re : Re) (hre : reals[i]? = some re) :
    realization s reals a b = .ok re := by
  have hc : channel s a b = .ok ((s.links (key a b)).getD s.dflt) := by
    unfold channel
    rw [if_neg (by simpa using ha), if_neg (by simpa using hb)]
  obtain ⟨hlt, hv⟩ := List.getElem?_eq_some_iff.mp hi
  have hidx : indexOf s.channels ((s.links (key a b)).getD s.dflt) = .ok i := by
    unfold indexOf
    have : s.channels.findIdx? (· == (s.links (key a b)).getD s.dflt) = some i := by
      rw [List.findIdx?_eq_some_iff_getElem]
      refine ⟨hlt, by simp [hv], fun j hj => ?_⟩
      simp only [beq_iff_eq]
      intro he
      rw [← hv] at he
      have := (List.Nodup.getElem_inj_iff hd).mp he
      omega
    rw [this]
  unfold realization
  simp only [hc, hidx, hre]

example : realization ⟨[0, 1], 9, [9, 5], fun k => if k = (0, 1) then some 5 else none, [(0, 1)]⟩ ["default", "linked"] 1 0 = .ok "linked" ∧
    realization ⟨[0, 1], 9, [9, 5], fun k => if k = (0, 1) then some 5 else none, [(0, 1)]⟩ ["default", "linked"] 1 1 = .ok "default" :=
  ⟨C138_realization _ _ 1 0 (by simp) (by simp) (by simp) 1 (by simp [key]) _ rfl, C138_realization _ _ 1 1 (by simp) (by simp) (by simp) 0 (by simp [key]) _ rfl⟩

/-- C138: another number of transmissions than devices raises `ValueError`, and so does a device that is not part of the
scenario. -/
theorem C138_errors (ops : Ops T X Y L B Re Sa) (s : Scn) (reals : List Re) (model : Nat → Nat) (devs : List Nat)
    (tx : List T) (calibrate : Bool) :
    (tx.length ≠ devs.length → triggerDirect ops s reals model devs tx calibrate = .error .value) ∧
    (tx.length = devs.length → ∀ a rest, devs = a :: rest → a ∉ s.devices →
      triggerDirect ops s reals model devs tx calibrate = .error .value) := by
  refine ⟨fun h => by unfold triggerDirect; rw [if_pos h], fun h a rest e ha => ?_⟩
  subst e
  cases tx with
  | nil => simp at h
  | cons t tx =>
    obtain ⟨hlen, -, -, -⟩ := Verif.Sim.C38_one_per_device ((a :: rest).map model)
    unfold triggerDirect
    rw [if_neg (by simpa using h)]
    dsimp only
    cases htr : (realizeTriggers ((a :: rest).map model)).device with
    | nil => rw [htr] at hlen; simp at hlen
    | cons g gs =>
      have hp : pairs (a :: rest).length = (0, 0) :: (pairs (a :: rest).length).tail := by
        unfold pairs
        rw [List.length_cons, List.range_succ_eq_map, List.flatMap_cons, Nat.sub_zero, List.range_succ_eq_map]
        simp
      rw [hp]
      unfold fill body
      simp [realization, channel, ha]

/-- What the devices of the examples do: signals are numbers, a trigger adds its number times a thousand, realizations
multiply, reciprocal samples are marked by a negative sign, devices add up what they hear. -/
def demo : Ops ℚ ℚ ℚ ℚ ℚ ℚ ℚ where
  emit := fun _ g t => t + 1000 * g
  sample := fun r _ _ _ => r
  recip := fun _ sa _ _ _ => -sa
  prop := fun sa x => sa * x
  leak := fun _ t => t / 10
  input := fun _ ys _ l => (ys.map fun y => y.getD 0).sum + l.getD 0
  calibrate := fun _ => some fun t b => b - t / 10
  own := fun t => t
  silence := fun _ _ => 0

example : triggerDirect demo (Verif.Sim.runLinks (Scn.new 9) [.add 0, .add 1]) [3] (fun _ => 4) [1, 0] [5, 7] true =
    .ok [-36, -6] := by decide +kernel

/-- C138: leakage and its calibration are left out of direct triggers of scenarios: whatever leaks, however devices are
calibrated and whether or not calibration is asked for, the signals are the same. -/
theorem C138_leakage_fails (ops : Ops T X Y L B Re Sa) (s : Scn) (reals : List Re) (model : Nat → Nat) (devs : List Nat)
    (tx : List T) (c c' : Bool) (leak : Nat → T → L) (cal : Nat → Option (T → B → B)) :
    triggerDirect { ops with leak := leak, calibrate := cal } s reals model devs tx c =
      triggerDirect ops s reals model devs tx c' := by
  have hb : ∀ p mat outs, body { ops with leak := leak, calibrate := cal } s reals devs outs p mat =
      body ops s reals devs outs p mat := fun _ _ _ => rfl
  have hf : ∀ l mat outs, fill { ops with leak := leak, calibrate := cal } s reals devs outs l mat =
      fill ops s reals devs outs l mat := by
    intro l
    induction l with
    | nil => intro mat outs; rfl
    | cons p l ih =>
      intro mat outs
      unfold fill
      rw [hb]
      cases body ops s reals devs outs p mat with
      | error e => rfl
      | ok m => exact ih m outs
  unfold triggerDirect
  simp only [hf]

/-! ## Devices -/

/-- C138: triggered on its own, a device that adds up what it hears receives its transmission and what of it leaks; told not
to receive its transmission, what leaks only. A calibration that removes the leakage leaves the transmission, or
silence. -/
theorem C138_device (ops : Ops T ℚ ℚ ℚ ℚ Re Sa) (d : Nat) (t : T) (f : T → ℚ → ℚ)
    (hin : ∀ y l, ops.input d [some y] none (some l) = y + l) (hs : ops.silence d t = 0)
    (hf : ∀ b, f t b = b - ops.leak d t) :
    deviceDirect ops true d t false = ops.own t + ops.leak d t ∧
    deviceDirect ops false d t false = ops.leak d t ∧
    (ops.calibrate d = some f → deviceDirect ops true d t true = ops.own t ∧ deviceDirect ops false d t true = 0) ∧
    (ops.calibrate d = none → ∀ r, deviceDirect ops r d t true = deviceDirect ops r d t false) := by
  refine ⟨?_, ?_, fun hc => ⟨?_, ?_⟩, fun hc r => ?_⟩
  · simp [deviceDirect, hin]
  · simp [deviceDirect, hin, hs]
  · simp [deviceDirect, hin, hc, hf]
  · simp [deviceDirect, hin, hs, hc, hf]
  · simp [deviceDirect, hc]

example : deviceDirect demo true 0 10 false = 11 ∧ deviceDirect demo false 0 10 true = 0 := by decide +kernel

/-- C138: triggering a device on its own and triggering it as the only device of a scenario whose channels pass signals on
unchanged differ by what leaks. -/
theorem C138_agree_fails (ops : Ops ℚ ℚ ℚ ℚ ℚ Re Sa) (s : Scn) (reals : List Re) (model : Nat → Nat) (d : Nat) (t : ℚ)
    (re : Re) (hre : realization s reals d d = .ok re) (hemit : ∀ g, ops.emit d g t = t) (hprop : ∀ a x, ops.prop a x = x)
    (hown : ops.own t = t) (hin : ∀ ys g l, ops.input d ys g l = (ys.map fun y => y.getD 0).sum + l.getD 0) :
    ∃ b, triggerDirect ops s reals model [d] [t] false = .ok [b] ∧
      deviceDirect ops true d t false = b + ops.leak d t := by
  obtain ⟨g, -, h⟩ := C138_trigger ops s reals model 1 (fun _ => d) (fun _ => t) (fun _ _ => re) false
    (fun _ _ _ _ => hre)
  refine ⟨_, by simpa using h, ?_⟩
  simp [deviceDirect, hin, hown, hprop, hemit]

example : ∃ b, triggerDirect { demo with emit := fun _ _ t => t, prop := fun _ x => x }
      (Verif.Sim.runLinks (Scn.new 9) [.add 0]) [3] (fun _ => 4) [0] [10] false = .ok [b] ∧ b = 10 ∧
    deviceDirect { demo with emit := fun _ _ t => t, prop := fun _ x => x } true 0 10 false = 11 := by
  obtain ⟨b, h1, h2⟩ := C138_agree_fails { demo with emit := fun _ _ t => t, prop := fun _ x => x }
    (Verif.Sim.runLinks (Scn.new 9) [.add 0]) [3] (fun _ => 4) 0 10 3 (by decide +kernel) (fun _ => rfl) (fun _ _ => rfl)
    rfl (fun _ _ _ => rfl)
  have h3 : deviceDirect { demo with emit := fun _ _ t => t, prop := fun _ x => x } true 0 10 false = 11 := by
    decide +kernel
  have h4 : ({ demo with emit := fun _ _ t => t, prop := fun _ x => x } : Ops ℚ ℚ ℚ ℚ ℚ ℚ ℚ).leak 0 10 = 1 := by
    decide +kernel
  refine ⟨b, h1, ?_, h3⟩
  rw [h3, h4] at h2
  linarith

end Verif.Direct
