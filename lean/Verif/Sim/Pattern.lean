import Verif.Core.ArrayStates
import Verif.Beam.Adaptive

/-!
# C131: radiation patterns of simulated antenna arrays

`SimulatedAntennaArray.calculate_power` and the slices of `plot_pattern`, `hermespy/simulation/antennas.py` 416-686.
Figures are not modelled.
-/

namespace Verif.Pattern

open Matrix Verif.Core Verif.Core.Ant Verif.Beam
open Verif (PyErr)

/-- A simulated array: its forwards transformation and its antennas with their weights. -/
structure Arr where
  forwards : Mat4
  elems : List Elem

/-- The array of antennas. -/
def Arr.array (a : Arr) : Array := ⟨a.forwards, a.elems.map Elem.antenna⟩

/-- `transmit_antennas` and `receive_antennas`, core/antennas.py 1273-1283. -/
def Arr.active (a : Arr) : Mode → List Elem
  | .duplex => a.elems
  | .tx => a.elems.filter fun x => x.antenna.mode ≠ .rx
  | .rx => a.elems.filter fun x => x.antenna.mode ≠ .tx

/-- `[a.weight for a in antennas]`, simulation/antennas.py 632; antennas which are not simulated have none. -/
def weightsOf : List Elem → Except PyErr (List ℂ) := collect fun e =>
  match e.weight with
  | none => .error .attribute
  | some w => .ok w

/-- Responses of all antennas towards all angles of interest, simulation/antennas.py 625-632. -/
noncomputable def Arr.responses (a : Arr) (f : ℝ) (m : Mode) (aoi : List (ℝ × ℝ)) : Except PyErr (List (List ℂ)) := do
  let rows ← collect (fun an : ℝ × ℝ => a.array.sphericalPhase f an.1 an.2 m) aoi
  let w ← weightsOf (a.active m)
  return rows.map fun r => List.zipWith (· * ·) r w

/-- Product of a row and a vector under the rules of numpy. -/
def broadcast (r w : List ℂ) : Except PyErr (List ℂ) :=
  if r.length = w.length then .ok (List.zipWith (· * ·) r w)
  else match r, w with
    | r, [x] => .ok (r.map (· * x))
    | [x], w => .ok (w.map (x * ·))
    | _, _ => .error .value

/-- First argument of `calculate_power` with the second: an antenna mode and weights, or a conventional beamformer. -/
inductive Arg where
  | mode (m : Mode) (weights : Option (List ℂ))
  | conventional (b : Beamformer)

/-- Power of weighted responses, simulation/antennas.py 634-641. -/
noncomputable def modePower (rows : List (List ℂ)) (weights : Option (List ℂ)) : Except PyErr (List ℝ) :=
  collect (fun r : List ℂ => match weights with
    | none => Except.ok (‖r.sum‖ ^ 2)
    | some w => (broadcast r w).map fun x => ‖x.sum‖ ^ 2) rows

/-- The transmit branch, simulation/antennas.py 643-663: a single sample of value one is encoded for the array at the
origin without a pose, `state(base_transform)`.  The array returned has one column, listed here. -/
noncomputable def encodePower (a : Arr) (f : ℝ) (rows : List (List ℂ)) (b : Beamformer) : Except PyErr (List ℝ) := do
  let s := stateOf (a.elems.map Elem.antenna) 1
  let angles ← collect (Focus.angles s) b.transmitFocus
  match angles with
  | [an] =>
    let w ← convEncode s f (fun _ : Fin 1 => 1) an
    return rows.map fun r => ‖(List.zipWith (fun x (y : Fin 1 → ℂ) => x * y 0) r w).sum‖ ^ 2
  | _ => .error .value

/-- `calculate_power`, simulation/antennas.py 574-686.  Conventional beamformers are transmit beamformers, so line 616
takes them for those, and line 664 is never reached with them.  No angle at all, refused by the multiplication in line
632, is not modelled. -/
noncomputable def calculatePower (a : Arr) (f : ℝ) (aoi : List (ℝ × ℝ)) : Arg → Except PyErr (List ℝ)
  | .mode .duplex _ => .error .value
  | .mode m w => a.responses f m aoi >>= fun rows => modePower rows w
  | .conventional b => a.responses f .tx aoi >>= fun rows => encodePower a f rows b

/-! ## Lemmas -/

/-- Arrays and antennas with rigid poses. -/
def Arr.Mounted (a : Arr) : Prop := Rigid a.forwards ∧ ∀ x ∈ a.elems, Rigid x.antenna.pose

/-- Factor an antenna contributes to the far field in a direction of the array's frame. -/
noncomputable def field (f : ℝ) (u : Vec3) (w : ℂ) (q : Vec3) : ℂ := w * phase (f / light * dot3 q u)

theorem active_map (a : Arr) (m : Mode) : a.array.select m = (a.active m).map Elem.antenna := by
  cases m <;> simp [Arr.array, Arr.active, Array.select, List.filter_map, Function.comp_def]

theorem active_mem (a : Arr) (m : Mode) (x : Elem) (h : x ∈ a.active m) : x ∈ a.elems := by
  cases m <;> simp only [Arr.active, List.mem_filter] at h
  · exact h.1
  · exact h.1
  · exact h

theorem weightsOf_ok (l : List Elem) (w : Elem → ℂ) (h : ∀ x ∈ l, x.weight = some (w x)) :
    weightsOf l = .ok (l.map w) := by
  unfold weightsOf
  refine collect_map _ _ _ fun x hx => ?_
  rw [h x hx]

theorem responses_ok (a : Arr) (ha : a.Mounted) (f : ℝ) (m : Mode) (aoi : List (ℝ × ℝ)) (w : Elem → ℂ)
    (hw : ∀ x ∈ a.elems, x.weight = some (w x)) :
    a.responses f m aoi = .ok (aoi.map fun an => (a.active m).map fun x =>
      field f (fromSpherical an.1 an.2) (w x) (translation x.antenna.pose)) := by
  unfold Arr.responses
  have h1 : collect (fun an : ℝ × ℝ => a.array.sphericalPhase f an.1 an.2 m) aoi =
      .ok (aoi.map fun an => (a.active m).map fun x =>
        phase (f / light * dot3 (translation x.antenna.pose) (fromSpherical an.1 an.2))) := by
    refine collect_map _ _ _ fun an _ => ?_
    rw [spherical_eq a.array ha.1 ?_, active_map, List.map_map]
    · congr 1
      refine List.map_congr_left fun x _ => ?_
      simp only [Function.comp]
      congr 1
      simp only [dot3, fromSpherical, Matrix.cons_val]
      ring
    · intro x hx
      obtain ⟨e, he, rfl⟩ := List.mem_map.mp hx
      exact ha.2 e he
  rw [h1, weightsOf_ok _ w fun x hx => hw x (active_mem a m x hx)]
  simp only [bind, Except.bind, pure, Except.pure, List.map_map]
  congr 1
  refine List.map_congr_left fun an _ => ?_
  simp only [Function.comp]
  rw [List.zipWith_map, List.zipWith_self]
  refine List.map_congr_left fun x _ => ?_
  unfold field
  exact mul_comm _ _

theorem field_norm (f : ℝ) (u : Vec3) (w : ℂ) (q : Vec3) : ‖field f u w q‖ = ‖w‖ := by
  unfold field
  rw [norm_mul, phase_norm, mul_one]

theorem broadcast_eq (r w : List ℂ) (h : r.length = w.length) : broadcast r w = .ok (List.zipWith (· * ·) r w) := by
  unfold broadcast
  rw [if_pos h]

theorem norm_sum_map {α : Type} (l : List α) (g : α → ℂ) : ‖(l.map g).sum‖ ≤ (l.map fun x => ‖g x‖).sum := by
  induction l with
  | nil => simp
  | cons x l ih =>
    simp only [List.map_cons, List.sum_cons]
    exact (norm_add_le _ _).trans (add_le_add le_rfl ih)

/-! ## Properties -/

/-- C131: the power of an array with given weights in a direction is the squared magnitude of the sum of what its
antennas of that mode contribute to the far field, each with its own weight and with the weight given, wherever the array
is and however it is turned: directions are those of the array's frame. -/
theorem C131_power (a : Arr) (ha : a.Mounted) (f : ℝ) (m : Mode) (hm : m ≠ .duplex) (aoi : List (ℝ × ℝ)) (w : Elem → ℂ)
    (hw : ∀ x ∈ a.elems, x.weight = some (w x)) (c : List ℂ) (hc : c.length = (a.active m).length) :
    calculatePower a f aoi (.mode m (some c)) = .ok (aoi.map fun an =>
      ‖(List.zipWith (fun (x : Elem) y => w x * phase (f / light *
        dot3 (translation x.antenna.pose) (fromSpherical an.1 an.2)) * y) (a.active m) c).sum‖ ^ 2) := by
  have : calculatePower a f aoi (.mode m (some c)) =
      (a.responses f m aoi >>= fun rows => modePower rows (some c)) := by
    cases m <;> first | rfl | exact absurd rfl hm
  rw [this, responses_ok a ha f m aoi w hw]
  simp only [bind, Except.bind]
  unfold modePower
  rw [show aoi.map (fun an => ‖(List.zipWith (fun (x : Elem) y => w x * phase (f / light *
        dot3 (translation x.antenna.pose) (fromSpherical an.1 an.2)) * y) (a.active m) c).sum‖ ^ 2) =
      (aoi.map fun an => (a.active m).map fun x => field f (fromSpherical an.1 an.2) (w x)
        (translation x.antenna.pose)).map (fun r => ‖(List.zipWith (· * ·) r c).sum‖ ^ 2) from ?_]
  · refine collect_map _ _ _ fun r hr => ?_
    obtain ⟨an, _, rfl⟩ := List.mem_map.mp hr
    dsimp only
    rw [broadcast_eq _ _ (by simp [hc])]
    rfl
  · rw [List.map_map]
    refine List.map_congr_left fun an _ => ?_
    simp only [Function.comp, List.zipWith_map_left, field]

/-- C131: without weights, all are taken for one. -/
theorem C131_default (a : Arr) (ha : a.Mounted) (f : ℝ) (m : Mode) (hm : m ≠ .duplex) (aoi : List (ℝ × ℝ)) (w : Elem → ℂ)
    (hw : ∀ x ∈ a.elems, x.weight = some (w x)) :
    calculatePower a f aoi (.mode m none) =
      calculatePower a f aoi (.mode m (some (List.replicate (a.active m).length 1))) := by
  rw [C131_power a ha f m hm aoi w hw _ (by simp)]
  have : calculatePower a f aoi (.mode m none) = (a.responses f m aoi >>= fun rows => modePower rows none) := by
    cases m <;> first | rfl | exact absurd rfl hm
  rw [this, responses_ok a ha f m aoi w hw]
  simp only [bind, Except.bind]
  unfold modePower
  dsimp only
  rw [collect_map _ (fun r : List ℂ => ‖r.sum‖ ^ 2) _ fun _ _ => rfl, List.map_map]
  congr 1
  refine List.map_congr_left fun an _ => ?_
  simp only [Function.comp, field]
  congr 3
  generalize a.active m = l
  induction l with
  | nil => rfl
  | cons x l ih => simp [List.replicate_succ, ih]

/-- C131: a single weight is the weight of all antennas. -/
theorem C131_common (a : Arr) (ha : a.Mounted) (f : ℝ) (m : Mode) (hm : m ≠ .duplex) (aoi : List (ℝ × ℝ)) (w : Elem → ℂ)
    (hw : ∀ x ∈ a.elems, x.weight = some (w x)) (c : ℂ) :
    calculatePower a f aoi (.mode m (some [c])) =
      calculatePower a f aoi (.mode m (some (List.replicate (a.active m).length c))) := by
  rw [C131_power a ha f m hm aoi w hw (List.replicate (a.active m).length c) (by simp)]
  have : calculatePower a f aoi (.mode m (some [c])) = (a.responses f m aoi >>= fun rows => modePower rows (some [c])) := by
    cases m <;> first | rfl | exact absurd rfl hm
  rw [this, responses_ok a ha f m aoi w hw]
  simp only [bind, Except.bind]
  unfold modePower
  dsimp only
  rw [collect_map _ (fun r : List ℂ => ‖(r.map (· * c)).sum‖ ^ 2) _ ?_, List.map_map]
  · congr 1
    refine List.map_congr_left fun an _ => ?_
    simp only [Function.comp, field, List.map_map]
    congr 3
    generalize a.active m = l
    induction l with
    | nil => rfl
    | cons x l ih => simp [List.replicate_succ, ih]
  · intro r _
    unfold broadcast
    split
    · rename_i hl
      obtain ⟨y, rfl⟩ := List.length_eq_one_iff.mp hl
      rfl
    · rfl

/-- C131: neither the place nor the orientation of an array changes its pattern. -/
theorem C131_mounting (a : Arr) (ha : a.Mounted) (F : Mat4) (hF : Rigid F) (f : ℝ) (aoi : List (ℝ × ℝ)) (w : Elem → ℂ)
    (hw : ∀ x ∈ a.elems, x.weight = some (w x)) (arg : Arg) :
    calculatePower { a with forwards := F } f aoi arg = calculatePower a f aoi arg := by
  have hr : ∀ m, ({ a with forwards := F } : Arr).responses f m aoi = a.responses f m aoi := by
    intro m
    rw [responses_ok a ha f m aoi w hw, responses_ok { a with forwards := F } ⟨hF, ha.2⟩ f m aoi w hw]
    cases m <;> rfl
  cases arg with
  | mode m c => cases m <;> simp only [calculatePower, hr]
  | conventional b =>
    simp only [calculatePower, hr]
    rfl

/-- C131: antennas of weight one and a conventional beamformer: the power is the square of the number of transmitting
antennas in the direction focused, which is in the array's frame, and not more in any direction. -/
theorem C131_focus (a : Arr) (ha : a.Mounted) (f : ℝ) (aoi : List (ℝ × ℝ)) (hw : ∀ x ∈ a.elems, x.weight = some 1)
    (hn : a.active .tx ≠ []) (b : Beamformer) (fo : Focus) (hb : b.transmitFocus = [fo]) (an : ℝ × ℝ)
    (hfo : fo.angles (stateOf (a.elems.map Elem.antenna) 1) = .ok an) :
    ∃ p, calculatePower a f aoi (.conventional b) = .ok p ∧ p.length = aoi.length ∧
      ∀ k, ∀ h : k < aoi.length, ∀ h' : k < p.length,
        p[k] ≤ (a.active .tx).length ^ 2 ∧ (aoi[k] = an → p[k] = (a.active .tx).length ^ 2) := by
  set N : Nat := (a.active .tx).length with hN
  set s := stateOf (a.elems.map Elem.antenna) 1 with hs
  have hsel : s.select .tx = (a.active .tx).map Elem.antenna := active_map ⟨1, a.elems⟩ .tx
  have hoff : offsets s .tx = (a.active .tx).map fun x => translation x.antenna.pose := by
    unfold offsets
    rw [hsel, List.map_map]
    refine List.map_congr_left fun x hx => ?_
    have h1 : s.forwards = assemble 1 0 := assemble_one.symm
    simp only [Function.comp]
    rw [h1, global_offset 0 (ha.2 x (active_mem a _ x hx)), Matrix.one_mulVec]
  have henc : convEncode s f (fun _ : Fin 1 => 1) an = .ok ((a.active .tx).map fun x => fun _ =>
      phase (-(f / light * dot3 (translation x.antenna.pose) (fromSpherical an.1 an.2)))) := by
    unfold convEncode
    rw [if_neg (by rw [hsel]; simpa using hn)]
    unfold steering
    rw [hoff, List.map_map, List.map_map]
    congr 1
    refine List.map_congr_left fun x _ => ?_
    funext k
    simp [Function.comp]
  have hval : calculatePower a f aoi (.conventional b) = .ok (aoi.map fun o => ‖((a.active .tx).map fun x =>
      phase (f / light * dot3 (translation x.antenna.pose) (fromSpherical o.1 o.2)) *
        phase (-(f / light * dot3 (translation x.antenna.pose) (fromSpherical an.1 an.2)))).sum‖ ^ 2) := by
    simp only [calculatePower]
    rw [responses_ok a ha f .tx aoi (fun _ => 1) hw]
    show encodePower a f _ b = _
    unfold encodePower
    rw [← hs, hb]
    dsimp only
    have hcol : collect (Focus.angles s) [fo] = .ok [an] := by
      simp [collect, hfo]
    rw [hcol]
    show (convEncode s f (fun _ : Fin 1 => 1) an >>= _) = _
    rw [henc]
    simp only [bind, Except.bind, pure, Except.pure, List.map_map]
    congr 1
    refine List.map_congr_left fun o _ => ?_
    simp only [Function.comp, field, one_mul]
    rw [List.zipWith_map, List.zipWith_self]
  refine ⟨_, hval, by simp, fun k h h' => ?_⟩
  rw [List.getElem_map]
  constructor
  · refine pow_le_pow_left₀ (norm_nonneg _) ((norm_sum_map _ _).trans ?_) 2
    simp only [norm_mul, phase_norm, mul_one, List.map_const', List.sum_replicate, nsmul_eq_mul]
    exact le_rfl
  · intro e
    rw [e]
    simp only [mul_comm (phase (f / light * _)), phase_cancel, List.map_const', List.sum_replicate, nsmul_eq_mul, mul_one]
    rw [Complex.norm_natCast]

/-- C131: weights which undo the phases of a direction give the power of the square of the number of antennas there and
not more elsewhere. -/
theorem C131_matched (a : Arr) (ha : a.Mounted) (f : ℝ) (m : Mode) (hm : m ≠ .duplex) (aoi : List (ℝ × ℝ))
    (hw : ∀ x ∈ a.elems, x.weight = some 1) (an : ℝ × ℝ) (r : List ℂ)
    (hr : a.array.sphericalPhase f an.1 an.2 m = .ok r) :
    ∃ p, calculatePower a f aoi (.mode m (some (r.map (starRingEnd ℂ)))) = .ok p ∧ p.length = aoi.length ∧
      ∀ k, ∀ h : k < aoi.length, ∀ h' : k < p.length,
        p[k] ≤ (a.active m).length ^ 2 ∧ (aoi[k] = an → p[k] = (a.active m).length ^ 2) := by
  have hr' : r = (a.active m).map fun x =>
      phase (f / light * dot3 (translation x.antenna.pose) (fromSpherical an.1 an.2)) := by
    rw [spherical_eq a.array ha.1 ?_, active_map, List.map_map] at hr
    · cases hr
      refine List.map_congr_left fun x _ => ?_
      simp only [Function.comp]
      congr 1
      simp only [dot3, fromSpherical, Matrix.cons_val]
      ring
    · intro x hx
      obtain ⟨e, he, rfl⟩ := List.mem_map.mp hx
      exact ha.2 e he
  have hconj : ∀ x : ℝ, starRingEnd ℂ (phase x) = phase (-x) := by
    intro x
    unfold phase
    rw [← Complex.exp_conj]
    congr 1
    simp [Complex.conj_ofNat]
  subst hr'
  refine ⟨_, C131_power a ha f m hm aoi (fun _ => 1) hw _ (by simp), by simp, fun k h h' => ?_⟩
  simp only [List.getElem_map, List.map_map, List.zipWith_map_right, List.zipWith_self, Function.comp, hconj, one_mul]
  constructor
  · refine pow_le_pow_left₀ (norm_nonneg _) ((norm_sum_map _ _).trans ?_) 2
    simp only [norm_mul, phase_norm, mul_one, List.map_const', List.sum_replicate, nsmul_eq_mul]
    exact le_rfl
  · intro e
    rw [e]
    simp only [mul_comm (phase (f / light * _)), phase_cancel, List.map_const', List.sum_replicate, nsmul_eq_mul, mul_one]
    rw [Complex.norm_natCast]

/-- C131: whatever is neither a mode of transmission or reception nor a beamformer is refused. -/
theorem C131_refused (a : Arr) (f : ℝ) (aoi : List (ℝ × ℝ)) (w : Option (List ℂ)) :
    calculatePower a f aoi (.mode .duplex w) = .error .value := rfl

/-- C131: the power does not depend on the characteristics of the antennas. -/
theorem C131_element_fails (a : Arr) (f : ℝ) (aoi : List (ℝ × ℝ)) (e : Element) (arg : Arg) :
    calculatePower ⟨a.forwards, a.elems.map fun x => { x with antenna := { x.antenna with element := e } }⟩ f aoi arg =
      calculatePower a f aoi arg := by
  set g : Elem → Elem := fun x => { x with antenna := { x.antenna with element := e } } with hg
  have hact : ∀ (F : Mat4) m, (⟨F, a.elems.map g⟩ : Arr).active m = (a.active m).map g := by
    intro F m
    cases m <;> simp [Arr.active, List.filter_map, Function.comp_def, hg]
  have htop : ∀ (F : Mat4) m, (⟨F, a.elems.map g⟩ : Arr).array.topology m = (⟨F, a.elems⟩ : Arr).array.topology m := by
    intro F m
    unfold Array.topology
    rw [active_map, active_map, hact F m]
    simp only [List.length_map, List.map_map]
    rfl
  have hres : ∀ m, (⟨a.forwards, a.elems.map g⟩ : Arr).responses f m aoi = a.responses f m aoi := by
    intro m
    unfold Arr.responses Array.sphericalPhase
    rw [htop, hact]
    have : weightsOf ((a.active m).map g) = weightsOf (a.active m) := by
      generalize a.active m = l
      unfold weightsOf
      induction l with
      | nil => rfl
      | cons x l ih => simp only [List.map_cons, collect, ih]; rfl
    rw [this]
  cases arg with
  | mode m c => cases m <;> simp only [calculatePower, hres]
  | conventional b =>
    simp only [calculatePower, hres]
    have henc : ∀ rows, encodePower ⟨a.forwards, a.elems.map g⟩ f rows b = encodePower a f rows b := by
      intro rows
      unfold encodePower
      have h1 : ∀ fo, Focus.angles (stateOf ((a.elems.map g).map Elem.antenna) 1) fo =
          Focus.angles (stateOf (a.elems.map Elem.antenna) 1) fo := by
        intro fo; cases fo with
        | spherical => rfl
        | coordinates d r => cases r <;> rfl
      have h2 : ∀ (an : ℝ × ℝ), convEncode (stateOf ((a.elems.map g).map Elem.antenna) 1) f (fun _ : Fin 1 => 1) an =
          convEncode (stateOf (a.elems.map Elem.antenna) 1) f (fun _ : Fin 1 => 1) an := by
        intro an
        have hsel1 : (stateOf ((a.elems.map g).map Elem.antenna) 1).select .tx = ((a.active .tx).map g).map Elem.antenna := by
          rw [← hact 1]; exact active_map ⟨1, a.elems.map g⟩ .tx
        have hsel2 : (stateOf (a.elems.map Elem.antenna) 1).select .tx = (a.active .tx).map Elem.antenna :=
          active_map ⟨1, a.elems⟩ .tx
        unfold convEncode steering offsets
        rw [hsel1, hsel2]
        simp only [List.length_map, List.map_map]
        rfl
      dsimp only
      rw [show Focus.angles (stateOf ((a.elems.map g).map Elem.antenna) 1) =
        Focus.angles (stateOf (a.elems.map Elem.antenna) 1) from funext h1]
      simp only [h2]
    simp only [henc]

/-- C131: they do depend on directions, for instance that of a patch antenna. -/
example : Element.field 1 0 0 .patch = .ok (1, 0) ∧ Element.field 1 0 (Real.pi / 2) .patch = .ok (1 / 10, 0) := by
  constructor <;> simp [Element.field] <;> norm_num

/-- C131: the direction in which a beamformer is focused for reception does not matter, there is no pattern of
reception. -/
theorem C131_receive_fails (a : Arr) (f : ℝ) (aoi : List (ℝ × ℝ)) (b : Beamformer) (fo : List Focus) :
    calculatePower a f aoi (.conventional { b with receiveFocus := fo }) = calculatePower a f aoi (.conventional b) := rfl

/-- C131: uniform arrays of simulated dipoles have no pattern. -/
theorem C131_dipole_fails (w : ℂ) (m : Mode) (hm : m ≠ .rx) (T : Mat4) (s : ℝ) (hs : 0 < s) (n : Nat) (F : Mat4)
    (f : ℝ) (aoi : List (ℝ × ℝ)) (c : Option (List ℂ)) :
    ∃ u, Uniform.create ⟨⟨m, .dipole, T⟩, some w⟩ s [.int (n + 1), .int 1, .int 1] = .ok u ∧
      ∃ e, calculatePower ⟨F, u.antennas⟩ f aoi (.mode .tx c) = .error e := by
  refine ⟨_, create_eq _ s hs (n + 1) 1 1, ?_⟩
  simp only [calculatePower]
  set l : List Elem := (List.range (1 * ((n + 1) * 1))).map (fun i =>
    placed ⟨⟨m, .dipole, T⟩, some w⟩ s (coords (n + 1) 1 i)) with hl
  have hact : (⟨F, l⟩ : Arr).active .tx = l := by
    simp only [Arr.active, List.filter_eq_self]
    intro x hx
    obtain ⟨i, _, rfl⟩ := List.mem_map.mp (hl ▸ hx)
    exact decide_eq_true hm
  have hwt : weightsOf l = .error .attribute := by
    rw [hl, show 1 * ((n + 1) * 1) = n + 1 by ring, List.range_succ_eq_map, List.map_cons]
    rfl
  unfold Arr.responses
  rw [hact, hwt]
  cases collect (fun an : ℝ × ℝ => (⟨F, l⟩ : Arr).array.sphericalPhase f an.1 an.2 .tx) aoi with
  | error e => exact ⟨e, rfl⟩
  | ok r => exact ⟨_, rfl⟩

/-- Two antennas half a wavelength apart on the x axis of an array. -/
noncomputable def duo (F : Mat4) (f : ℝ) : Arr :=
  ⟨F, [⟨⟨.duplex, .ideal, 1⟩, some 1⟩, ⟨⟨.duplex, .ideal, assemble 1 ![light / (2 * f), 0, 0]⟩, some 1⟩]⟩

theorem duo_mounted (F : Mat4) (hF : Rigid F) (f : ℝ) : (duo F f).Mounted := by
  have hone : IsRotation (1 : Mat3) := ⟨by simp, by simp, by simp⟩
  refine ⟨hF, fun x hx => ?_⟩
  simp only [duo, List.mem_cons, List.not_mem_nil, or_false] at hx
  rcases hx with rfl | rfl
  · exact rigid_one
  · exact ⟨_, _, hone, rfl⟩

/-- C131: the pattern is not that of a turned device.  For a pair of antennas turned by ninety degrees it shows the
greatest power in the direction focused, while the streams encoded for the device cancel in that direction completely. -/
theorem C131_turned_fails (p : Vec3) (f : ℝ) (hf : 0 < f) (b : Beamformer)
    (hb : b.transmitFocus = [.spherical 0 (Real.pi / 2)]) :
    let a := duo (assemble turn p) f
    calculatePower a f [(0, Real.pi / 2)] (.conventional b) = .ok [4] ∧
    ∃ rows r, convEncode a.array f (fun _ : Fin 1 => 1) (0, Real.pi / 2) = .ok rows ∧
      a.array.sphericalPhase f 0 (Real.pi / 2) .tx = .ok r ∧
      (List.zipWith (fun x (y : Fin 1 → ℂ) => x * y 0) r rows).sum = 0 := by
  intro a
  have hl : (0 : ℝ) < light := by norm_num [light]
  have hone : IsRotation (1 : Mat3) := ⟨by simp, by simp, by simp⟩
  have hR : Rigid (assemble turn p) := ⟨_, _, turn_isRotation, rfl⟩
  have hm := duo_mounted (assemble turn p) hR f
  have hact : (a.active .tx).length = 2 := by simp [a, duo, Arr.active]
  constructor
  · obtain ⟨q, h1, h2, h3⟩ := C131_focus a hm f [(0, Real.pi / 2)] (by simp [a, duo]) (by simp [a, duo, Arr.active])
      b _ hb _ rfl
    rw [h1]
    match q, h2 with
    | [x], _ =>
      have := (h3 0 (by simp) (by simp)).2 rfl
      rw [hact] at this
      simp only [List.getElem_cons_zero] at this
      rw [this]; norm_num
  · have hsel : a.array.select .tx = [⟨.duplex, .ideal, 1⟩, ⟨.duplex, .ideal, assemble 1 ![light / (2 * f), 0, 0]⟩] := by
      simp [a, duo, Arr.array, Array.select]
    have h1 : translation (1 : Mat4) = 0 := by rw [← assemble_one, translation_of]
    have hoff : offsets a.array .tx = [0, ![0, light / (2 * f), 0]] := by
      unfold offsets
      rw [hsel]
      have hF : a.array.forwards = assemble turn p := rfl
      simp only [List.map_cons, List.map_nil]
      rw [hF, global_offset p rigid_one, global_offset p ⟨_, _, hone, rfl⟩, translation_of, h1]
      simp only [Matrix.mulVec_zero, List.cons.injEq, and_true, true_and]
      funext i; fin_cases i <;> simp [turn, Matrix.mulVec, dotProduct, Fin.sum_univ_three]
    have hsp : a.array.sphericalPhase f 0 (Real.pi / 2) .tx = .ok [1, -1] := by
      rw [spherical_eq a.array hm.1 ?_, hsel]
      · simp only [List.map_cons, List.map_nil, h1, translation_of]
        have e1 : dot3 ![Real.cos 0 * Real.sin (Real.pi / 2), Real.sin 0 * Real.sin (Real.pi / 2),
            Real.cos (Real.pi / 2)] 0 = 0 := by simp [dot3]
        have e2 : f * dot3 ![Real.cos 0 * Real.sin (Real.pi / 2), Real.sin 0 * Real.sin (Real.pi / 2),
            Real.cos (Real.pi / 2)] ![light / (2 * f), 0, 0] / light = 1 / 2 := by
          simp [dot3]; field_simp
        rw [e1, e2, mul_zero, zero_div, phase_zero, phase_half]
      · intro x hx
        obtain ⟨e, he, rfl⟩ := List.mem_map.mp hx
        exact hm.2 e he
    refine ⟨[fun _ => 1, fun _ => 1], [1, -1], ?_, hsp, ?_⟩
    · unfold convEncode steering
      rw [if_neg (by rw [hsel]; simp), hoff]
      simp [dot3, fromSpherical, phase_zero]
    · simp

example : ∃ b : Beamformer, b.transmitFocus = [.spherical 0 (Real.pi / 2)] :=
  ⟨{ Beamformer.create .conventional with transmitFocus := [.spherical 0 (Real.pi / 2)] }, rfl⟩

/-! ## Slices -/

/-- A point of a slice, simulation/antennas.py 509-544: `start` and `direction` are pairs of azimuth and zenith. -/
noncomputable def slicePoint (start direction : ℝ × ℝ) (α : ℝ) : Vec3 :=
  let v1 : Vec3 := ![Real.sin start.2 * Real.cos start.1, Real.sin start.2 * Real.sin start.1, Real.cos start.2]
  let zen : Vec3 := ![Real.cos start.2 * Real.cos start.1, Real.cos start.2 * Real.sin start.1, -Real.sin start.2]
  let azi : Vec3 := ![-Real.sin start.1, Real.cos start.1, 0]
  fun i => Real.cos α * v1 i + Real.sin α * (direction.2 * zen i + direction.1 * azi i)

/-- Angles of a point of a slice, simulation/antennas.py 546-552; `arccos` is not a number outside of its domain. -/
noncomputable def sliceAngles (start direction : ℝ × ℝ) (α : ℝ) : Option (ℝ × ℝ) :=
  open Classical in
  let v := slicePoint start direction α
  if v 2 < -1 ∨ 1 < v 2 then none else some (arctan2 (v 1) (v 0), Real.arccos (v 2))

/-- C131: slices in a direction of length one are great circles through the starting point in that direction: every
point is a unit vector, the angles evaluated are its angles. -/
theorem C131_slice_partial (start direction : ℝ × ℝ) (h : direction.1 ^ 2 + direction.2 ^ 2 = 1) (α : ℝ) :
    IsUnitVec (slicePoint start direction α) ∧ slicePoint start direction 0 = fromSpherical start.1 start.2 ∧
    ∃ an, sliceAngles start direction α = some an ∧ fromSpherical an.1 an.2 = slicePoint start direction α := by
  have hu : IsUnitVec (slicePoint start direction α) := by
    have h1 := Real.sin_sq_add_cos_sq start.1
    have h2 := Real.sin_sq_add_cos_sq start.2
    have h3 := Real.sin_sq_add_cos_sq α
    simp only [IsUnitVec, slicePoint, Matrix.cons_val]
    have e : ∀ A B C D E F d z : ℝ, A ^ 2 + B ^ 2 = 1 → C ^ 2 + D ^ 2 = 1 → E ^ 2 + F ^ 2 = 1 → d ^ 2 + z ^ 2 = 1 →
        (F * (C * B) + E * (z * (D * B) + d * -A)) ^ 2 + (F * (C * A) + E * (z * (D * A) + d * B)) ^ 2 +
          (F * D + E * (z * -C + d * 0)) ^ 2 = 1 := by
      intro A B C D E F d z h1 h2 h3 h4
      have : (F * (C * B) + E * (z * (D * B) + d * -A)) ^ 2 + (F * (C * A) + E * (z * (D * A) + d * B)) ^ 2 +
          (F * D + E * (z * -C + d * 0)) ^ 2 = (F * C + E * z * D) ^ 2 * (A ^ 2 + B ^ 2) + E ^ 2 * d ^ 2 * (A ^ 2 + B ^ 2) +
          (F * D - E * z * C) ^ 2 := by ring
      rw [this, h1]
      have : (F * C + E * z * D) ^ 2 * 1 + E ^ 2 * d ^ 2 * 1 + (F * D - E * z * C) ^ 2 =
          F ^ 2 * (C ^ 2 + D ^ 2) + E ^ 2 * (z ^ 2 * (C ^ 2 + D ^ 2) + d ^ 2) := by ring
      rw [this, h2]
      nlinarith [h3, h4]
    exact e _ _ _ _ _ _ _ _ h1 h2 h3 h
  refine ⟨hu, ?_, toSpherical (slicePoint start direction α), ?_, ?_⟩
  · funext i
    fin_cases i <;> simp [slicePoint, fromSpherical]
  · unfold sliceAngles
    have hz : (slicePoint start direction α 2) ^ 2 ≤ 1 := by
      have := hu
      simp only [IsUnitVec] at this
      nlinarith [sq_nonneg (slicePoint start direction α 0), sq_nonneg (slicePoint start direction α 1)]
    rw [if_neg]
    · rfl
    · have := abs_le.mp ((sq_le_one_iff_abs_le_one _).mp hz)
      push Not
      exact ⟨this.1, this.2⟩
  · exact (C29_cartesian_roundtrip _ hu).1

/-- C131: slices starting at the horizon into the direction (1, 1), half way between azimuth and zenith, leave the great
circle: the direction evaluated is not that of the point. -/
theorem C131_slice_fails (α : ℝ) (h : Real.sin α ≠ 0) :
    ∃ an, sliceAngles (0, Real.pi / 2) (1, 1) α = some an ∧
      ∀ r : ℝ, 0 < r → (fun i => r * fromSpherical an.1 an.2 i) ≠ slicePoint (0, Real.pi / 2) (1, 1) α := by
  have e0 : slicePoint (0, Real.pi / 2) (1, 1) α 0 = Real.cos α := by simp [slicePoint]
  have e1 : slicePoint (0, Real.pi / 2) (1, 1) α 1 = Real.sin α := by simp [slicePoint]
  have e2 : slicePoint (0, Real.pi / 2) (1, 1) α 2 = -Real.sin α := by simp [slicePoint]
  refine ⟨(arctan2 (Real.sin α) (Real.cos α), Real.arccos (-Real.sin α)), ?_, fun r hr hc => ?_⟩
  · unfold sliceAngles
    dsimp only
    rw [e0, e1, e2, if_neg]
    have h1 := Real.sin_le_one α
    have h2 := Real.neg_one_le_sin α
    push Not
    constructor <;> linarith
  · have hz := congrFun hc 2
    have hn : IsUnitVec (fromSpherical (arctan2 (Real.sin α) (Real.cos α)) (Real.arccos (-Real.sin α))) := C29_unit _ _
    have hx := congrFun hc 0
    have hy := congrFun hc 1
    rw [e0] at hx
    rw [e1] at hy
    rw [e2] at hz
    have hz' : fromSpherical (arctan2 (Real.sin α) (Real.cos α)) (Real.arccos (-Real.sin α)) 2 = -Real.sin α := by
      simp only [fromSpherical, Matrix.cons_val]
      exact Real.cos_arccos (by linarith [Real.sin_le_one α]) (by linarith [Real.neg_one_le_sin α])
    dsimp only at hz
    rw [hz'] at hz
    have hr1 : r = 1 := by
      have : (r - 1) * Real.sin α = 0 := by linarith
      rcases mul_eq_zero.mp this with h' | h'
      · linarith
      · exact absurd h' h
    simp only [IsUnitVec] at hn
    dsimp only at hx hy
    rw [hr1, one_mul] at hx hy
    rw [hx, hy, hz'] at hn
    have := Real.sin_sq_add_cos_sq α
    have : Real.sin α ^ 2 = 0 := by nlinarith
    exact h (pow_eq_zero_iff two_ne_zero |>.mp this)

/-- C131: into longer directions, some angles do not exist at all. -/
theorem C131_slice_nan_fails (α : ℝ) (h : 1 / 2 < Real.sin α) : sliceAngles (0, Real.pi / 2) (0, 2) α = none := by
  have e2 : slicePoint (0, Real.pi / 2) (0, 2) α 2 = -(2 * Real.sin α) := by simp [slicePoint]; ring
  unfold sliceAngles
  dsimp only
  rw [if_pos]
  left
  rw [e2]
  linarith

example : (1 : ℝ) / 2 < Real.sin (Real.pi / 2) := by rw [Real.sin_pi_div_two]; norm_num

end Verif.Pattern
