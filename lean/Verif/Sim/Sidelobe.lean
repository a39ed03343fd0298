import Verif.Beam.Adaptive
import Verif.Sim.Power
import Mathlib.Algebra.Order.Chebyshev

/-!
# C104: evaluation of sidelobes

Model of `simulation/evaluators/beamforming.py` over the antenna arrays of C80.
-/

namespace Verif.Sidelobe

open Matrix Verif.Core Verif.Core.Ant Verif.Beam

noncomputable section

/-- `np.linspace(0, 2 * np.pi, 2 * num_antennas, endpoint=False)`, line 135. -/
def azimuths (n : ℕ) : List ℝ := (List.range (2 * n)).map fun (i : ℕ) => 2 * Real.pi * (i : ℝ) / ((2 * n : ℕ) : ℝ)

/-- `np.linspace(0, np.pi, num_antennas, endpoint=True)[1:]`, line 136. -/
def zeniths (n : ℕ) : List ℝ := ((List.range n).map fun (j : ℕ) => Real.pi * (j : ℝ) / ((n - 1 : ℕ) : ℝ)).drop 1

/-- The directions sampled after the first, lines 143-144: azimuths change fastest. -/
def directions (n : ℕ) : List (ℝ × ℝ) := (zeniths n).flatMap fun z => (azimuths n).map fun a => (a, z)

/-- Responses of all directions. -/
def responses (a : Array) (f : ℝ) (m : Mode) (n : ℕ) : List (ℝ × ℝ) → Except PyErr (List (List ℂ))
  | [] => .ok []
  | d :: ds => do
    let r ← a.sphericalPhase f d.1 d.2 m
    if r.length ≠ n then .error .value
    let rs ← responses a f m n ds
    return r :: rs

/-- Number of antennas considered by the codebook, lines 129-133. -/
def count (a : Array) : Mode → ℕ
  | .tx => (a.select .tx).length
  | _ => (a.select .rx).length

/-- The codebook of `SidelobeEvaluator.__init__`, lines 126-150. -/
def codebook (a : Array) (f : ℝ) (m : Mode) : Option (List (List ℂ)) → Except PyErr (List (List ℂ))
  | some rows => .ok rows
  | none => do
    let rs ← responses a f m (count a m) (directions (count a m))
    return List.replicate (count a m) 1 :: rs

/-- Energy of a weighted block, line 235: squared norm of one row of `weights @ block`. -/
def energy {n : ℕ} (w : Fin n → ℂ) (block : List (Fin n → ℂ)) : ℝ :=
  (block.map fun c => ‖∑ i, w i * c i‖ ^ 2).sum

/-- Energy of a block, line 236. -/
def total {n : ℕ} (block : List (Fin n → ℂ)) : ℝ := (block.map fun c => ∑ i, ‖c i‖ ^ 2).sum

/-- Lines 224-241: the directional energies of the codebook and of the focus, normalized by the energy of the signal;
`none` if the signal has no energy, leaving no numbers. Rows not fitting each other or the signal are a `ValueError`,
also for signals without blocks. -/
def levels (a : Array) (f : ℝ) (m : Mode) (focus : ℝ × ℝ) (rows : List (List ℂ)) {n : ℕ}
    (blocks : List (List (Fin n → ℂ))) : Except PyErr (Option (List ℝ × ℝ)) := do
  let r ← a.sphericalPhase f focus.1 focus.2 m
  let w ← fit r n
  let ws ← collect (fun row => fit row n) rows
  let e := (blocks.map total).sum
  if e = 0 then return none
  else return some (ws.map fun w => (blocks.map (energy w)).sum / e, (blocks.map (energy w)).sum / e)

/-- `evaluate`, lines 198-241, with the signals last transmitted and received. -/
def evaluate (a : Array) (f : ℝ) (m : Mode) (focus : ℝ × ℝ) (rows : List (List ℂ)) {n : ℕ}
    (output input : Power.Slot (List (List (Fin n → ℂ)))) : Except PyErr (Option (List ℝ × ℝ)) :=
  match m with
  | .tx => do levels a f .tx focus rows (← output.get)
  | .rx => do levels a f .rx focus rows (← input.get)
  | .duplex => .error .runtime

/-- `SidelobeEvaluation.artifact`, lines 55-58. -/
def artifact (r : List ℝ × ℝ) : Option ℝ := if r.1.sum = 0 then none else some (r.2 / r.1.sum)

/-! ### Responses -/

/-- Phase responses of the antennas of an array. -/
def response (a : Array) (f : ℝ) (m : Mode) (az ze : ℝ) : List ℂ :=
  (a.select m).map fun x => phase (f * dot3 ![Real.cos az * Real.sin ze, Real.sin az * Real.sin ze, Real.cos ze]
    (translation x.pose) / light)

/-- Arrays with rigid transformations. -/
def Mounted (a : Array) : Prop := Rigid a.forwards ∧ ∀ x ∈ a.antennas, Rigid x.pose

theorem spherical (a : Array) (ha : Mounted a) (f az ze : ℝ) (m : Mode) :
    a.sphericalPhase f az ze m = .ok (response a f m az ze) := spherical_eq a ha.1 ha.2 f az ze m

theorem response_length (a : Array) (f : ℝ) (m : Mode) (az ze : ℝ) :
    (response a f m az ze).length = (a.select m).length := by simp [response]

theorem response_unit (a : Array) (f : ℝ) (m : Mode) (az ze : ℝ) : ∀ z ∈ response a f m az ze, ‖z‖ = 1 := by
  intro z hz
  obtain ⟨x, -, rfl⟩ := List.mem_map.mp hz
  exact phase_norm _

theorem fit_ok {n : ℕ} (l : List ℂ) (h : l.length = n) : fit l n = .ok fun i => l[i.val]'(h ▸ i.isLt) := by
  rw [fit, dif_pos h]

/-- The weights of a row. -/
def weights (n : ℕ) (l : List ℂ) : Fin n → ℂ := fun i => l.getD i.val 0

theorem fit_weights {n : ℕ} (l : List ℂ) (h : l.length = n) : fit l n = .ok (weights n l) := by
  rw [fit_ok l h]
  congr 1
  funext i
  simp [weights, List.getD_eq_getElem?_getD, h]

theorem levels_ok (a : Array) (ha : Mounted a) (f : ℝ) (m : Mode) (az ze : ℝ) (rows : List (List ℂ)) {n : ℕ}
    (hn : (a.select m).length = n) (hr : ∀ r ∈ rows, r.length = n) (blocks : List (List (Fin n → ℂ)))
    (he : (blocks.map total).sum ≠ 0) :
    levels a f m (az, ze) rows blocks = .ok (some
      (rows.map fun r => (blocks.map (energy (weights n r))).sum / (blocks.map total).sum,
        (blocks.map (energy (weights n (response a f m az ze)))).sum / (blocks.map total).sum)) := by
  have hc : collect (fun row => fit row n) rows = .ok (rows.map (weights n)) := by
    induction rows with
    | nil => rfl
    | cons r rows ih =>
      rw [collect, fit_weights r (hr r (by simp)), ih fun r h => hr r (by simp [h])]
      rfl
  simp only [levels, spherical a ha, fit_weights _ ((response_length a f m az ze).trans hn), hc, bind, Except.bind, pure,
    Except.pure, if_neg he, List.map_map]
  rfl

/-! ### Levels -/

theorem energy_nonneg {n : ℕ} (w : Fin n → ℂ) (b : List (Fin n → ℂ)) : 0 ≤ energy w b := by
  refine List.sum_nonneg fun x hx => ?_
  obtain ⟨c, -, rfl⟩ := List.mem_map.mp hx
  positivity

theorem total_nonneg {n : ℕ} (b : List (Fin n → ℂ)) : 0 ≤ total b := by
  refine List.sum_nonneg fun x hx => ?_
  obtain ⟨c, -, rfl⟩ := List.mem_map.mp hx
  positivity

theorem energy_le {n : ℕ} (w : Fin n → ℂ) (hw : ∀ i, ‖w i‖ = 1) (b : List (Fin n → ℂ)) : energy w b ≤ n * total b := by
  induction b with
  | nil => simp [energy, total]
  | cons c b ih =>
    have e1 : energy w (c :: b) = ‖∑ i, w i * c i‖ ^ 2 + energy w b := by simp [energy]
    have e2 : total (c :: b) = ∑ i, ‖c i‖ ^ 2 + total b := by simp [total]
    have h1 : ‖∑ i, w i * c i‖ ≤ ∑ i, ‖c i‖ := by
      refine (norm_sum_le _ _).trans (le_of_eq (Finset.sum_congr rfl fun i _ => ?_))
      rw [norm_mul, hw, one_mul]
    have h2 : (∑ i, ‖c i‖) ^ 2 ≤ n * ∑ i, ‖c i‖ ^ 2 := by
      have := sq_sum_le_card_mul_sum_sq (s := (Finset.univ : Finset (Fin n))) (f := fun i => ‖c i‖)
      simpa using this
    have h3 : ‖∑ i, w i * c i‖ ^ 2 ≤ (∑ i, ‖c i‖) ^ 2 := pow_le_pow_left₀ (norm_nonneg _) h1 2
    rw [e1, e2]
    nlinarith

theorem sum_energy_le {n : ℕ} (w : Fin n → ℂ) (hw : ∀ i, ‖w i‖ = 1) (bs : List (List (Fin n → ℂ))) :
    (bs.map (energy w)).sum ≤ n * (bs.map total).sum := by
  induction bs with
  | nil => simp
  | cons b bs ih =>
    simp only [List.map_cons, List.sum_cons]
    have := energy_le w hw b
    linarith

theorem sums_nonneg {n : ℕ} (w : Fin n → ℂ) (bs : List (List (Fin n → ℂ))) :
    0 ≤ (bs.map (energy w)).sum ∧ 0 ≤ (bs.map total).sum := by
  constructor <;> refine List.sum_nonneg fun x hx => ?_ <;> obtain ⟨c, -, rfl⟩ := List.mem_map.mp hx
  · exact energy_nonneg _ _
  · exact total_nonneg _

theorem weights_unit {n : ℕ} (l : List ℂ) (h : l.length = n) (hu : ∀ z ∈ l, ‖z‖ = 1) (i : Fin n) :
    ‖weights n l i‖ = 1 := by
  have : weights n l i = l[i.val]'(h ▸ i.isLt) := by simp [weights, List.getD_eq_getElem?_getD, h]
  rw [this]
  exact hu _ (List.getElem_mem _)

/-- C104: with a codebook of phases, every level lies between zero and the number of antennas. -/
theorem C104_bounds (a : Array) (ha : Mounted a) (f : ℝ) (m : Mode) (az ze : ℝ) (rows : List (List ℂ)) {n : ℕ}
    (hn : (a.select m).length = n) (hr : ∀ r ∈ rows, r.length = n ∧ ∀ z ∈ r, ‖z‖ = 1)
    (blocks : List (List (Fin n → ℂ))) (he : ∃ b ∈ blocks, ∃ c ∈ b, c ≠ 0) :
    ∃ ps p, levels a f m (az, ze) rows blocks = .ok (some (ps, p)) ∧ ps.length = rows.length ∧ 0 ≤ p ∧ p ≤ n ∧
      ∀ q ∈ ps, 0 ≤ q ∧ q ≤ n := by
  have hpos : 0 < (blocks.map total).sum := by
    obtain ⟨b, hb, c, hc, h0⟩ := he
    have h1 : ∑ i, ‖c i‖ ^ 2 ≤ total b := List.single_le_sum (by
      intro x hx
      obtain ⟨c, -, rfl⟩ := List.mem_map.mp hx
      positivity) _ (List.mem_map.mpr ⟨c, hc, rfl⟩)
    have h2 : total b ≤ (blocks.map total).sum := List.single_le_sum (by
      intro x hx
      obtain ⟨c, -, rfl⟩ := List.mem_map.mp hx
      exact total_nonneg _) _ (List.mem_map.mpr ⟨b, hb, rfl⟩)
    obtain ⟨i, hi⟩ := Function.ne_iff.mp h0
    have h3 : 0 < ‖c i‖ ^ 2 := by
      have := norm_pos_iff.mpr hi
      positivity
    have h4 : ‖c i‖ ^ 2 ≤ ∑ i, ‖c i‖ ^ 2 := Finset.single_le_sum (f := fun i => ‖c i‖ ^ 2) (fun _ _ => by positivity)
      (Finset.mem_univ i)
    linarith
  have key : ∀ w : Fin n → ℂ, (∀ i, ‖w i‖ = 1) → 0 ≤ (blocks.map (energy w)).sum / (blocks.map total).sum ∧
      (blocks.map (energy w)).sum / (blocks.map total).sum ≤ n := fun w hw => by
    refine ⟨div_nonneg (sums_nonneg w blocks).1 hpos.le, ?_⟩
    rw [div_le_iff₀ hpos]
    exact sum_energy_le w hw blocks
  refine ⟨_, _, levels_ok a ha f m az ze rows hn (fun r h => (hr r h).1) blocks hpos.ne', by simp, ?_⟩
  have h1 := key _ (weights_unit _ ((response_length a f m az ze).trans hn) (response_unit a f m az ze))
  refine ⟨h1.1, h1.2, ?_⟩
  intro q hq
  obtain ⟨r, h, rfl⟩ := List.mem_map.mp hq
  exact key _ (weights_unit r (hr r h).1 (hr r h).2)

/-- A signal `s` weighted with `u` at the antennas. -/
def beam {n : ℕ} (u : Fin n → ℂ) (s : List (List ℂ)) : List (List (Fin n → ℂ)) := s.map fun b => b.map fun z i => u i * z

/-- Energy of a signal. -/
def power (s : List (List ℂ)) : ℝ := (s.map fun b => (b.map fun z => ‖z‖ ^ 2).sum).sum

theorem energy_beam {n : ℕ} (w u : Fin n → ℂ) (s : List (List ℂ)) :
    ((beam u s).map (energy w)).sum = ‖∑ i, w i * u i‖ ^ 2 * power s := by
  have h : ∀ b : List ℂ, energy w (b.map fun z i => u i * z) = ‖∑ i, w i * u i‖ ^ 2 * (b.map fun z => ‖z‖ ^ 2).sum := by
    intro b
    rw [energy, List.map_map, ← List.sum_map_mul_left]
    congr 1
    refine List.map_congr_left fun z _ => ?_
    simp only [Function.comp]
    have : ∑ i, w i * (u i * z) = (∑ i, w i * u i) * z := by
      rw [Finset.sum_mul]; exact Finset.sum_congr rfl fun i _ => by ring
    rw [this, norm_mul, mul_pow]
  rw [beam, power, List.map_map, ← List.sum_map_mul_left]
  congr 1
  exact List.map_congr_left fun b _ => h b

theorem total_beam {n : ℕ} (u : Fin n → ℂ) (hu : ∀ i, ‖u i‖ = 1) (s : List (List ℂ)) :
    ((beam u s).map total).sum = n * power s := by
  have h : ∀ b : List ℂ, total (b.map fun z (i : Fin n) => u i * z) = n * (b.map fun z => ‖z‖ ^ 2).sum := by
    intro b
    rw [total, List.map_map, ← List.sum_map_mul_left]
    congr 1
    refine List.map_congr_left fun z _ => ?_
    simp [Function.comp, hu]
  rw [beam, power, List.map_map, ← List.sum_map_mul_left]
  congr 1
  exact List.map_congr_left fun b _ => h b

theorem power_pos (s : List (List ℂ)) (h : ∃ b ∈ s, ∃ z ∈ b, z ≠ 0) : 0 < power s := by
  obtain ⟨b, hb, z, hz, h0⟩ := h
  have h1 : ‖z‖ ^ 2 ≤ (b.map fun z => ‖z‖ ^ 2).sum := List.single_le_sum (by
    intro x hx
    obtain ⟨c, -, rfl⟩ := List.mem_map.mp hx
    positivity) _ (List.mem_map.mpr ⟨z, hz, rfl⟩)
  have h2 : (b.map fun z => ‖z‖ ^ 2).sum ≤ power s := List.single_le_sum (by
    intro x hx
    obtain ⟨c, -, rfl⟩ := List.mem_map.mp hx
    refine List.sum_nonneg fun y hy => ?_
    obtain ⟨c, -, rfl⟩ := List.mem_map.mp hy
    positivity) _ (List.mem_map.mpr ⟨b, hb, rfl⟩)
  have := norm_pos_iff.mpr h0
  have : 0 < ‖z‖ ^ 2 := by positivity
  linarith

/-- C104: a signal with the phase `u` at each antenna is evaluated with `|∑ aᵢ uᵢ|² / n` for the response `a` of the
direction focused. -/
theorem C104_levels (a : Array) (ha : Mounted a) (f : ℝ) (m : Mode) (az ze : ℝ) (rows : List (List ℂ)) {n : ℕ}
    (h0 : 0 < n) (hn : (a.select m).length = n) (hr : ∀ r ∈ rows, r.length = n) (u : Fin n → ℂ) (hu : ∀ i, ‖u i‖ = 1)
    (s : List (List ℂ)) (hs : ∃ b ∈ s, ∃ z ∈ b, z ≠ 0) :
    levels a f m (az, ze) rows (beam u s) = .ok (some
      (rows.map fun r => ‖∑ i, r.getD i.val 0 * u i‖ ^ 2 / n,
        ‖∑ i : Fin n, (response a f m az ze).getD i.val 0 * u i‖ ^ 2 / n)) := by
  have hp := power_pos s hs
  have hn0 : (n : ℝ) ≠ 0 := by exact_mod_cast h0.ne'
  rw [levels_ok a ha f m az ze rows hn hr _ (by rw [total_beam u hu]; positivity)]
  simp only [energy_beam, total_beam u hu]
  have e : ∀ x : ℝ, x * power s / (n * power s) = x / n := fun x => by
    rw [mul_div_mul_right _ _ hp.ne']
  simp only [e]
  rfl

/-- C104: transmissions focused on the desired direction, by the conjugate of the response, as conventional beamformers do,
have the largest level possible there. -/
theorem C104_focus (a : Array) (ha : Mounted a) (f : ℝ) (az ze : ℝ) (rows : List (List ℂ)) {n : ℕ}
    (h0 : 0 < n) (hn : (a.select .tx).length = n) (hr : ∀ r ∈ rows, r.length = n ∧ ∀ z ∈ r, ‖z‖ = 1)
    (s : List (List ℂ)) (hs : ∃ b ∈ s, ∃ z ∈ b, z ≠ 0) :
    ∃ ps, levels a f .tx (az, ze) rows
      (beam (fun i : Fin n => (starRingEnd ℂ) ((response a f .tx az ze).getD i.val 0)) s) = .ok (some (ps, n)) ∧
      ∀ q ∈ ps, q ≤ n := by
  have hu := weights_unit _ ((response_length a f .tx az ze).trans hn) (response_unit a f .tx az ze)
  have hu' : ∀ i : Fin n, ‖(starRingEnd ℂ) ((response a f .tx az ze).getD i.val 0)‖ = 1 := fun i => by
    rw [RCLike.norm_conj]; exact hu i
  have e := C104_levels a ha f .tx az ze rows h0 hn (fun r h => (hr r h).1) _ hu' s hs
  have e1 : (∑ i : Fin n, (response a f .tx az ze).getD i.val 0 *
      (starRingEnd ℂ) ((response a f .tx az ze).getD i.val 0)) = n := by
    have : ∀ i : Fin n, (response a f .tx az ze).getD i.val 0 *
        (starRingEnd ℂ) ((response a f .tx az ze).getD i.val 0) = 1 := fun i => by
      rw [Complex.mul_conj, ← Complex.sq_norm]
      have := hu i
      rw [weights] at this
      rw [this]; simp
    rw [Finset.sum_congr rfl fun i _ => this i]; simp
  have hn0 : (n : ℝ) ≠ 0 := by exact_mod_cast h0.ne'
  rw [e1, Complex.norm_natCast, sq, mul_div_assoc, div_self hn0, mul_one] at e
  refine ⟨_, e, ?_⟩
  obtain ⟨ps, p, h1, -, -, -, h2⟩ := C104_bounds a ha f .tx az ze rows hn hr
    (beam (fun i : Fin n => (starRingEnd ℂ) ((response a f .tx az ze).getD i.val 0)) s) (by
      obtain ⟨b, hb, z, hz, hz0⟩ := hs
      refine ⟨_, List.mem_map.mpr ⟨b, hb, rfl⟩, _, List.mem_map.mpr ⟨z, hz, rfl⟩, ?_⟩
      intro hc
      have := congrFun hc ⟨0, h0⟩
      simp only [Pi.zero_apply, mul_eq_zero] at this
      rcases this with h | h
      · have := hu' ⟨0, h0⟩
        rw [h] at this; simp at this
      · exact hz0 h)
  rw [e] at h1
  cases h1
  exact fun q hq => (h2 q hq).2

/-- Two antennas a quarter of a wavelength apart. -/
def quarter (f : ℝ) : Array := ⟨1, [⟨.duplex, .ideal, 1⟩, ⟨.duplex, .ideal, assemble 1 ![light / (4 * f), 0, 0]⟩]⟩

theorem one_rotation : IsRotation (1 : Mat3) := ⟨by simp, by simp, by simp⟩

theorem quarter_mounted (f : ℝ) : Mounted (quarter f) := by
  refine ⟨rigid_one, fun x hx => ?_⟩
  simp only [quarter, List.mem_cons, List.not_mem_nil, or_false] at hx
  rcases hx with rfl | rfl
  · exact rigid_one
  · exact ⟨_, _, one_rotation, rfl⟩

theorem phase_quarter : phase (1 / 4) = Complex.I := by
  rw [phase]
  rw [show (2 * (Real.pi : ℂ) * ((1 / 4 : ℝ) : ℂ) * Complex.I) = Real.pi / 2 * Complex.I by push_cast; ring]
  exact Complex.exp_pi_div_two_mul_I

theorem quarter_response (f : ℝ) (hf : 0 < f) : response (quarter f) f .rx 0 (Real.pi / 2) = [1, Complex.I] := by
  have hl : (0 : ℝ) < light := by norm_num [light]
  have h1 : translation (1 : Mat4) = 0 := by rw [← assemble_one, translation_of]
  have e1 : dot3 ![Real.cos 0 * Real.sin (Real.pi / 2), Real.sin 0 * Real.sin (Real.pi / 2),
      Real.cos (Real.pi / 2)] 0 = 0 := by simp [dot3]
  have e2 : f * dot3 ![Real.cos 0 * Real.sin (Real.pi / 2), Real.sin 0 * Real.sin (Real.pi / 2),
      Real.cos (Real.pi / 2)] ![light / (4 * f), 0, 0] / light = 1 / 4 := by
    simp [dot3]; field_simp
  have hs : (quarter f).select .rx = (quarter f).antennas := by simp [quarter, Array.select]
  rw [response, hs]
  simp only [quarter, List.map_cons, List.map_nil, h1, translation_of, e1, e2, mul_zero, zero_div, phase_zero,
    phase_quarter]

/-- C104 fails for receptions: the weights are not conjugated. A plane wave from the direction desired, having the phase
response of the array to that direction, is evaluated as if nothing was received from there. -/
theorem C104_receive_fails (f : ℝ) (hf : 0 < f) (rows : List (List ℂ)) (hr : ∀ r ∈ rows, r.length = 2)
    (s : List (List ℂ)) (hs : ∃ b ∈ s, ∃ z ∈ b, z ≠ 0) :
    ∃ u : Fin 2 → ℂ, (quarter f).sphericalPhase f 0 (Real.pi / 2) .rx = .ok (List.ofFn u) ∧
      ∃ ps, levels (quarter f) f .rx (0, Real.pi / 2) rows (beam u s) = .ok (some (ps, 0)) := by
  refine ⟨![1, Complex.I], ?_, ?_⟩
  · rw [spherical _ (quarter_mounted f), quarter_response f hf]; simp
  · have := C104_levels (quarter f) (quarter_mounted f) f .rx 0 (Real.pi / 2) rows (n := 2) (by norm_num)
      (by simp [quarter, Array.select]) hr ![1, Complex.I] (by intro i; fin_cases i <;> simp) s hs
    rw [quarter_response f hf] at this
    have e : (∑ i : Fin 2, [1, Complex.I].getD i.val 0 * (![1, Complex.I] : Fin 2 → ℂ) i) = 0 := by
      simp [Fin.sum_univ_two]
    rw [e] at this
    refine ⟨rows.map fun r => ‖∑ i : Fin 2, r.getD i.val 0 * (![1, Complex.I] : Fin 2 → ℂ) i‖ ^ 2 / (2 : ℕ), ?_⟩
    rw [this]
    simp

/-- C104: levels do not depend on the scale of the signal. -/
theorem C104_scale (a : Array) (f : ℝ) (m : Mode) (focus : ℝ × ℝ) (rows : List (List ℂ)) {n : ℕ}
    (blocks : List (List (Fin n → ℂ))) (g : ℂ) (hg : g ≠ 0) :
    levels a f m focus rows (blocks.map fun b => b.map fun c i => g * c i) = levels a f m focus rows blocks := by
  have h1 : ∀ w : Fin n → ℂ, ((blocks.map fun b => b.map fun c i => g * c i).map (energy w)).sum =
      ‖g‖ ^ 2 * (blocks.map (energy w)).sum := by
    intro w
    rw [List.map_map, ← List.sum_map_mul_left]
    congr 1
    refine List.map_congr_left fun b _ => ?_
    simp only [Function.comp, energy]
    rw [List.map_map, ← List.sum_map_mul_left]
    congr 1
    refine List.map_congr_left fun c _ => ?_
    simp only [Function.comp]
    have : ∑ i, w i * (g * c i) = g * ∑ i, w i * c i := by
      rw [Finset.mul_sum]; exact Finset.sum_congr rfl fun i _ => by ring
    rw [this, norm_mul, mul_pow]
  have h2 : ((blocks.map fun b => b.map fun c i => g * c i).map total).sum = ‖g‖ ^ 2 * (blocks.map total).sum := by
    rw [List.map_map, ← List.sum_map_mul_left]
    congr 1
    refine List.map_congr_left fun b _ => ?_
    simp only [Function.comp, total]
    rw [List.map_map, ← List.sum_map_mul_left]
    congr 1
    refine List.map_congr_left fun c _ => ?_
    simp [Function.comp, mul_pow, Finset.mul_sum]
  have hg' : ‖g‖ ^ 2 ≠ 0 := by simpa using hg
  unfold levels
  simp only [h1, h2, mul_eq_zero, hg', false_or, mul_div_mul_left _ _ hg']

/-- C104: signals without energy leave no levels. -/
theorem C104_silent_fails (a : Array) (ha : Mounted a) (f : ℝ) (m : Mode) (az ze : ℝ) (rows : List (List ℂ)) {n : ℕ}
    (hn : (a.select m).length = n) (hr : ∀ r ∈ rows, r.length = n) (k : ℕ) :
    levels a f m (az, ze) rows [List.replicate k (0 : Fin n → ℂ)] = .ok none := by
  have hc : collect (fun row => fit row n) rows = .ok (rows.map (weights n)) := by
    induction rows with
    | nil => rfl
    | cons r rows ih =>
      rw [collect, fit_weights r (hr r (by simp)), ih fun r h => hr r (by simp [h])]
      rfl
  have e : ([List.replicate k (0 : Fin n → ℂ)].map total).sum = 0 := by simp [total]
  simp only [levels, spherical a ha, fit_weights _ ((response_length a f m az ze).trans hn), hc, bind, Except.bind, pure,
    Except.pure, if_pos e]

/-- C104: if the desired direction is one of the codebook's, its share lies between zero and one. -/
theorem C104_artifact (a : Array) (ha : Mounted a) (f : ℝ) (m : Mode) (az ze : ℝ) (rows : List (List ℂ)) {n : ℕ}
    (hn : (a.select m).length = n) (hr : ∀ r ∈ rows, r.length = n) (hmem : response a f m az ze ∈ rows)
    (blocks : List (List (Fin n → ℂ))) (r : List ℝ × ℝ) (h : levels a f m (az, ze) rows blocks = .ok (some r)) (x : ℝ)
    (hx : artifact r = some x) : 0 ≤ x ∧ x ≤ 1 := by
  by_cases he : (blocks.map total).sum = 0
  · have hc : collect (fun row => fit row n) rows = .ok (rows.map (weights n)) := by
      clear hmem h
      induction rows with
      | nil => rfl
      | cons r rows ih =>
        rw [collect, fit_weights r (hr r (by simp)), ih fun r h => hr r (by simp [h])]
        rfl
    simp only [levels, spherical a ha, fit_weights _ ((response_length a f m az ze).trans hn), hc, bind, Except.bind,
      pure, Except.pure, if_pos he] at h
    cases h
  · rw [levels_ok a ha f m az ze rows hn hr blocks he] at h
    cases h
    unfold artifact at hx
    split at hx
    · cases hx
    · rename_i hne
      cases hx
      have hnn : ∀ q ∈ rows.map fun r => (blocks.map (energy (weights n r))).sum / (blocks.map total).sum, 0 ≤ q := by
        intro q hq
        obtain ⟨r, -, rfl⟩ := List.mem_map.mp hq
        exact div_nonneg (sums_nonneg _ _).1 (sums_nonneg (weights n r) _).2
      have hle := List.single_le_sum hnn _ (List.mem_map.mpr ⟨_, hmem, rfl⟩)
      have h0 := hnn _ (List.mem_map.mpr ⟨_, hmem, rfl⟩)
      have hs := List.sum_nonneg hnn
      exact ⟨div_nonneg h0 hs, div_le_one_of_le₀ hle hs⟩

/-! ### Codebook -/

theorem responses_ok (a : Array) (ha : Mounted a) (f : ℝ) (m : Mode) (ds : List (ℝ × ℝ)) :
    responses a f m (a.select m).length ds = .ok (ds.map fun d => response a f m d.1 d.2) := by
  induction ds with
  | nil => rfl
  | cons d ds ih =>
    simp only [responses, spherical a ha, response_length, ih, bind, Except.bind, pure, Except.pure, ne_eq,
      not_true_eq_false, if_false, List.map_cons]

theorem codebook_ok (a : Array) (ha : Mounted a) (f : ℝ) (m : Mode) (hm : m ≠ .duplex) :
    codebook a f m none = .ok (List.replicate (a.select m).length 1 ::
      (directions (a.select m).length).map fun d => response a f m d.1 d.2) := by
  have hc : count a m = (a.select m).length := by cases m <;> first | rfl | exact absurd rfl hm
  simp only [codebook, hc, responses_ok a ha, bind, Except.bind, pure, Except.pure]

theorem azimuths_length (n : ℕ) : (azimuths n).length = 2 * n := by simp [azimuths]

theorem directions_get (n i j : ℕ) (hi : i < 2 * n) (hj : j + 1 < n) :
    (directions n)[2 * n * j + i]? = some (Real.pi * i / n, Real.pi * (j + 1) / (n - 1)) := by
  have hz : zeniths n = (List.range (n - 1)).map fun (j : ℕ) => Real.pi * ((j : ℝ) + 1) / ((n : ℝ) - 1) := by
    unfold zeniths
    apply List.ext_getElem
    · simp
    · intro k h1 h2
      simp only [List.length_drop, List.length_map, List.length_range] at h1
      simp only [List.getElem_drop, List.getElem_map, List.getElem_range]
      push_cast [Nat.cast_sub (by omega : 1 ≤ n)]
      ring
  have key : ∀ (zs : List ℝ) (k : ℕ) (z : ℝ), zs[k]? = some z →
      (zs.flatMap fun z => (azimuths n).map fun a => (a, z))[2 * n * k + i]? = some (Real.pi * i / n, z) := by
    intro zs
    induction zs with
    | nil => intro k z h; simp at h
    | cons y zs ih =>
      intro k z h
      rw [List.flatMap_cons]
      cases k with
      | zero =>
        simp only [List.getElem?_cons_zero, Option.some.injEq] at h
        subst h
        rw [List.getElem?_append_left (by simp [azimuths_length]; omega)]
        have hn : (n : ℝ) ≠ 0 := by
          have : n ≠ 0 := by omega
          exact_mod_cast this
        simp only [Nat.mul_zero, Nat.zero_add, azimuths, List.getElem?_map, List.getElem?_range hi, Option.map_some,
          Option.some.injEq, Prod.mk.injEq, and_true]
        push_cast
        field_simp
      | succ k =>
        rw [List.getElem?_append_right (by
          simp only [List.length_map, azimuths_length]
          rw [Nat.mul_succ]; omega)]
        simp only [List.length_map, azimuths_length]
        rw [show 2 * n * (k + 1) + i - 2 * n = 2 * n * k + i by rw [Nat.mul_succ]; omega]
        exact ih k z (by simpa using h)
  rw [directions, key (zeniths n) j (Real.pi * (j + 1) / (n - 1))]
  rw [hz, List.getElem?_map, List.getElem?_range (by omega)]
  rfl

/-- C104: the codebook has, after its first entry, the phase responses of the array to twice as many azimuths as there
are antennas, equally spaced over the circle, for each of the zeniths dividing the half circle into as many parts as
there are antennas but one. -/
theorem C104_codebook (a : Array) (ha : Mounted a) (f : ℝ) (m : Mode) (hm : m ≠ .duplex) {n : ℕ}
    (hn : (a.select m).length = n) :
    ∃ rows, codebook a f m none = .ok rows ∧ (∀ r ∈ rows, r.length = n ∧ ∀ z ∈ r, ‖z‖ = 1) ∧
      ∀ i j, i < 2 * n → j + 1 < n →
        a.sphericalPhase f (Real.pi * i / n) (Real.pi * (j + 1) / (n - 1)) m =
          .ok (rows.getD (1 + (2 * n * j + i)) []) := by
  refine ⟨_, codebook_ok a ha f m hm, ?_, ?_⟩
  · intro r hr
    rcases List.mem_cons.mp hr with rfl | hr
    · refine ⟨by simp [hn], fun z hz => ?_⟩
      rw [List.eq_of_mem_replicate hz]; simp
    · obtain ⟨d, -, rfl⟩ := List.mem_map.mp hr
      exact ⟨(response_length ..).trans hn, response_unit a f m d.1 d.2⟩
  · intro i j hi hj
    rw [hn, spherical a ha, List.getD_eq_getElem?_getD, Nat.add_comm 1, List.getElem?_cons_succ, List.getElem?_map,
      directions_get n i j hi hj]
    rfl

/-- C104: the first entry is the response to the direction straight ahead, along the z axis, for arrays in the plane of
the other axes. -/
theorem C104_broadside_partial (a : Array) (ha : Mounted a) (f : ℝ) (m : Mode) (hm : m ≠ .duplex)
    (hz : ∀ x ∈ a.antennas, translation x.pose 2 = 0) (az : ℝ) :
    ∃ rows, codebook a f m none = .ok rows ∧ a.sphericalPhase f az 0 m = .ok (rows.getD 0 []) := by
  refine ⟨_, codebook_ok a ha f m hm, ?_⟩
  rw [spherical a ha]
  congr 1
  rw [List.getD_cons_zero, response, List.eq_replicate_iff]
  refine ⟨by simp, ?_⟩
  intro z h
  obtain ⟨x, hx, rfl⟩ := List.mem_map.mp h
  have : dot3 ![Real.cos az * Real.sin 0, Real.sin az * Real.sin 0, Real.cos 0] (translation x.pose) = 0 := by
    simp [dot3, hz x ((mem_select a m x).mp hx).1]
  rw [this, mul_zero, zero_div, phase_zero]

/-- Two antennas half a wavelength apart along the z axis. -/
def upright (f : ℝ) : Array := ⟨1, [⟨.duplex, .ideal, 1⟩, ⟨.duplex, .ideal, assemble 1 ![0, 0, light / (2 * f)]⟩]⟩

/-- C104 fails for arrays along the z axis: the first entry is not the response to the direction straight ahead, which it
is orthogonal to. -/
theorem C104_broadside_fails (f : ℝ) (hf : 0 < f) :
    ∃ rows, codebook (upright f) f .rx none = .ok rows ∧ rows.getD 0 [] = [1, 1] ∧
      (upright f).sphericalPhase f 0 0 .rx = .ok [1, -1] := by
  have ha : Mounted (upright f) := by
    refine ⟨rigid_one, fun x hx => ?_⟩
    simp only [upright, List.mem_cons, List.not_mem_nil, or_false] at hx
    rcases hx with rfl | rfl
    · exact rigid_one
    · exact ⟨_, _, one_rotation, rfl⟩
  have hl : (0 : ℝ) < light := by norm_num [light]
  have hs : (upright f).select .rx = (upright f).antennas := by simp [upright, Array.select]
  refine ⟨_, codebook_ok _ ha f .rx (by simp), by rw [hs]; rfl, ?_⟩
  rw [spherical _ ha, response, hs]
  have h1 : translation (1 : Mat4) = 0 := by rw [← assemble_one, translation_of]
  have e1 : dot3 ![Real.cos 0 * Real.sin 0, Real.sin 0 * Real.sin 0, Real.cos 0] 0 = 0 := by simp [dot3]
  have e2 : f * dot3 ![Real.cos 0 * Real.sin 0, Real.sin 0 * Real.sin 0, Real.cos 0] ![0, 0, light / (2 * f)] / light =
      1 / 2 := by
    simp [dot3]; field_simp
  simp only [upright, List.map_cons, List.map_nil, h1, translation_of, e1, e2, mul_zero, zero_div, phase_zero,
    phase_half]

/-- C104 fails for the directions sampled, which are documented to be those of the half space of positive z: the last
entries, twice as many as there are antennas, are all the response to the direction opposite of it. -/
theorem C104_half_fails (a : Array) (ha : Mounted a) (f : ℝ) (m : Mode) (hm : m ≠ .duplex) {n : ℕ}
    (hn : (a.select m).length = n) (h2 : 2 ≤ n) :
    ∃ rows, codebook a f m none = .ok rows ∧ ∀ i < 2 * n,
      a.sphericalPhase f 0 Real.pi m = .ok (rows.getD (1 + (2 * n * (n - 2) + i)) []) := by
  obtain ⟨rows, h1, -, h3⟩ := C104_codebook a ha f m hm hn
  refine ⟨rows, h1, fun i hi => ?_⟩
  rw [← h3 i (n - 2) hi (by omega)]
  have e : Real.pi * (((n - 2 : ℕ) : ℝ) + 1) / ((n : ℝ) - 1) = Real.pi := by
    push_cast [Nat.cast_sub h2]
    have : (n : ℝ) - 1 ≠ 0 := by
      have : (2 : ℝ) ≤ n := by exact_mod_cast h2
      linarith
    field_simp
    ring
  rw [e, spherical a ha, spherical a ha, response, response]
  simp

/-- C104 fails for evaluators whose mode is changed: their codebook keeps the number of antennas of the old mode, and
nothing can be evaluated. -/
theorem C104_mode_fails (a : Array) (ha : Mounted a) (f : ℝ) (m m' : Mode) (hm : m ≠ .duplex)
    (hne : (a.select m).length ≠ (a.select m').length) (focus : ℝ × ℝ) {n : ℕ} (blocks : List (List (Fin n → ℂ))) :
    ∃ rows, codebook a f m none = .ok rows ∧ levels a f m' focus rows blocks = .error .value := by
  refine ⟨_, codebook_ok a ha f m hm, ?_⟩
  by_cases h : (a.select m').length = n
  · have hl : ¬(List.replicate (a.select m).length (1 : ℂ)).length = n := by simp; omega
    simp only [levels, spherical a ha, fit_weights _ ((response_length a f m' _ _).trans h), bind, Except.bind, collect]
    rw [fit, dif_neg hl]
  · have hl : ¬(response a f m' focus.1 focus.2).length = n := by rw [response_length]; exact h
    simp only [levels, spherical a ha, bind, Except.bind]
    rw [fit, dif_neg hl]

/-! ### Signals evaluated -/

/-- C104: the signal last transmitted, or received, by the device is evaluated, and `RuntimeError` raised if there was
none, or for both directions at once. -/
theorem C104_latest (a : Array) (f : ℝ) (focus : ℝ × ℝ) (rows : List (List ℂ)) {n : ℕ} (k : ℕ)
    (outs ins : List (Power.Note (List (List (Fin n → ℂ))))) :
    ((∀ x ∈ outs, x.target = k → x.notify = false) →
      evaluate a f .tx focus rows (Power.fetch k .empty outs) (Power.fetch k .empty ins) = .error .runtime) ∧
    ((∀ x ∈ ins, x.target = k → x.notify = false) →
      evaluate a f .rx focus rows (Power.fetch k .empty outs) (Power.fetch k .empty ins) = .error .runtime) ∧
    (∀ pre post x, outs = pre ++ x :: post → x.target = k → x.notify = true →
      (∀ y ∈ post, y.target = k → y.notify = false) →
      evaluate a f .tx focus rows (Power.fetch k .empty outs) (Power.fetch k .empty ins) =
        levels a f .tx focus rows x.value) ∧
    (∀ pre post x, ins = pre ++ x :: post → x.target = k → x.notify = true →
      (∀ y ∈ post, y.target = k → y.notify = false) →
      evaluate a f .rx focus rows (Power.fetch k .empty outs) (Power.fetch k .empty ins) =
        levels a f .rx focus rows x.value) ∧
    evaluate a f .duplex focus rows (Power.fetch k .empty outs) (Power.fetch k .empty ins) = .error .runtime := by
  refine ⟨fun h => ?_, fun h => ?_, ?_, ?_, rfl⟩
  · rw [evaluate, Power.fetch_skip _ _ _ h]; rfl
  · rw [evaluate, Power.fetch_skip _ _ _ h]; rfl
  · rintro pre post x rfl rfl h1 h2
    rw [evaluate, Power.fetch_last _ _ _ _ h1 h2]; rfl
  · rintro pre post x rfl rfl h1 h2
    rw [evaluate, Power.fetch_last _ _ _ _ h1 h2]; rfl

/-- The pair of antennas is mounted, and has two antennas of either mode; the codebook has five entries. -/
example (f : ℝ) : Mounted (quarter f) ∧ ((quarter f).select .tx).length = 2 ∧
    ∃ rows, codebook (quarter f) f .tx none = .ok rows ∧ rows.length = 5 := by
  refine ⟨quarter_mounted f, by simp [quarter, Array.select], _, codebook_ok _ (quarter_mounted f) f .tx (by simp), ?_⟩
  simp [quarter, Array.select, directions, zeniths, azimuths, List.range_succ]

end

end Verif.Sidelobe
