import Verif.Radar.Fmcw
import Verif.Radar.Detect

/-!
# C94: radar operators

`Radar` and `RadarBase`, `radar/radar.py` 322-810, on top of any waveform and of `FMCW`.  Parameters are real numbers, samples
complex numbers.
-/

namespace Verif.RadarOperator

open Verif.FmcwRadar Verif.Radar

/-- A `RadarWaveform` in the state of a device: its range bins, Doppler bins and estimates of single streams. -/
structure Waveform where
  bins : Except PyErr (List ℝ)
  doppler : List ℝ
  resolution : ℝ
  ping : Except PyErr (List ℂ)
  estimate : List ℂ → Except PyErr Estimate

/-- A `ReceiveBeamformer`: `num_receive_output_streams`, `probe` (focus points, streams, samples) and `probe_focus_points`
(points, foci, angles). -/
structure Beamformer where
  outputs : ℕ → ℤ
  probe : List (List ℂ) → List (List (List ℂ))
  focus : List (List (List ℝ))

/-- `_receive_beamform`, `radar/radar.py` 453-485: angles of interest and lines.  Beamformers of a single output provide at
least one stream, and at least one focus. -/
def beamform (bf : Option Beamformer) (streams : List (List ℂ)) : Except PyErr (List (List ℝ) × List (List ℂ)) :=
  let angles := match bf with
    | none => [[0, 0]]
    | some b => b.focus.map (·.headD [])
  if streams.length > 1 then
    match bf with
    | none => .error .runtime
    | some b =>
      if b.outputs streams.length < 0 then .error .runtime
      else if b.outputs streams.length ≠ 1 then .error .runtime
      else .ok (angles, (b.probe streams).map (·.headD []))
  else .ok (angles, streams)

open Classical in
/-- `selected_range_idxs`, `radar/radar.py` 767-768. -/
noncomputable def select (minRange : ℝ) (bins : List ℝ) : List ℕ :=
  (List.range bins.length).filter fun k => decide (minRange ≤ bins.getD k 0)

/-- The loop over lines, `radar/radar.py` 774-779, with the array allocated before as `mem`.  Selecting a missing column and
writing to a missing row are `IndexError`s; an estimate of one row is written to all Doppler bins. -/
noncomputable def fill (w : Waveform) (angles : ℕ) (sel : List ℕ) :
    ℕ → List (List ℂ) → (ℕ → ℕ → ℕ → ℝ) → Except PyErr (ℕ → ℕ → ℕ → ℝ)
  | _, [], mem => .ok mem
  | i, line :: lines, mem =>
    match w.estimate line with
    | .error e => .error e
    | .ok e =>
      if sel.any (fun k => decide (e.cols ≤ k)) then .error .index
      else if angles ≤ i then .error .index
      else if e.rows = w.doppler.length ∨ e.rows = 1 then
        fill w angles sel (i + 1) lines fun a b c =>
          if a = i then e.power (if e.rows = w.doppler.length then b else 0) (sel.getD c 0) else mem a b c
      else .error .value

/-- A radar operator.  A detector is a function of cubes. -/
structure Operator where
  waveform : Option Waveform
  beamformer : Option Beamformer
  detector : Option (Cube ℝ → Except PyErr (List (Point ℝ)))
  minRange : ℝ

open Classical in
/-- The setter of `min_range`, `radar/radar.py` 425-430. -/
noncomputable def Operator.setMinRange (o : Operator) (x : ℝ) : Except PyErr Operator :=
  if x < 0 then .error .value else .ok { o with minRange := x }

/-- `_receive`, `radar/radar.py` 753-794, of a signal given by its streams, at the carrier frequency `fc`; `mem` is what the
memory of `np.empty` holds. -/
noncomputable def Operator.receive (o : Operator) (mem : ℕ → ℕ → ℕ → ℝ) (streams : List (List ℂ)) (fc : ℝ) :
    Except PyErr (Cube ℝ × Option (List (Point ℝ))) :=
  match o.waveform with
  | none => .error .runtime
  | some w =>
    match beamform o.beamformer streams with
    | .error e => .error e
    | .ok (angles, lines) =>
      match w.bins with
      | .error e => .error e
      | .ok bins =>
        let sel := select o.minRange bins
        match fill w angles.length sel 0 lines mem with
        | .error e => .error e
        | .ok data =>
          match mkCube ⟨[angles.length, w.doppler.length, sel.length], fun
              | [a, b, c] => data a b c
              | _ => 0⟩ (some angles) (some w.doppler) (some (sel.map fun k => bins.getD k 0)) fc with
          | .error e => .error e
          | .ok cube =>
            match o.detector with
            | none => .ok (cube, none)
            | some d =>
              match d cube with
              | .error e => .error e
              | .ok cloud => .ok (cube, some cloud)

/-- `_transmit`, `radar/radar.py` 734-751: the single stream. -/
def Operator.transmit (o : Operator) (ports : ℕ) : Except PyErr (List ℂ) :=
  match o.waveform with
  | none => .error .runtime
  | some w =>
    match w.ping with
    | .error e => .error e
    | .ok signal => if ports > 1 then .error .runtime else .ok signal

open Classical in
/-- `velocity_resolution`, `radar/radar.py` 713-732. -/
noncomputable def Operator.velocityResolution (o : Operator) (fc : ℝ) : Except PyErr ℝ :=
  match o.waveform with
  | none => .error .runtime
  | some w => if fc = 0 then .error .runtime else .ok (0.5 * w.resolution * light / fc)

/-- `FMCW` as a waveform. -/
noncomputable def ofFmcw (w : Fmcw) (resample : ℝ → List ℂ → List ℂ) (decimate : ℕ → List ℂ → List ℂ) (B : ℝ) (os : ℕ) :
    Waveform where
  bins := w.rangeBins B
  doppler := w.dopplerBins
  resolution := w.dopplerResolution
  ping := w.ping B os
  estimate := fun signal => w.estimate resample decimate signal B os

/-! ### Cubes -/

theorem mem_select (minRange : ℝ) (bins : List ℝ) (k : ℕ) :
    k ∈ select minRange bins ↔ k < bins.length ∧ minRange ≤ bins.getD k 0 := by
  classical
  simp [select]

theorem select_sorted (minRange : ℝ) (bins : List ℝ) : (select minRange bins).Pairwise (· < ·) := by
  classical
  unfold select
  exact List.Pairwise.filter _ List.pairwise_lt_range

/-- Lines write the rows of their indices and nothing else. -/
theorem fill_ok (w : Waveform) (angles : ℕ) (sel : List ℕ) (E : ℕ → Estimate) (lines : List (List ℂ)) :
    ∀ (i : ℕ) (mem : ℕ → ℕ → ℕ → ℝ), i + lines.length ≤ angles →
    (∀ a (h : a < lines.length), w.estimate lines[a] = .ok (E (i + a))) →
    (∀ a < lines.length, (E (i + a)).rows = w.doppler.length ∧ ∀ k ∈ sel, k < (E (i + a)).cols) →
    ∃ data, fill w angles sel i lines mem = .ok data ∧ ∀ a b c, data a b c =
      if i ≤ a ∧ a < i + lines.length then (E a).power b (sel.getD c 0) else mem a b c := by
  induction lines with
  | nil =>
    intro i mem _ _ _
    refine ⟨mem, rfl, fun a b c => ?_⟩
    rw [if_neg (by simp only [List.length_nil]; omega)]
  | cons line lines ih =>
    intro i mem hl hE hr
    simp only [List.length_cons] at hl hr hE
    have h0 : w.estimate line = .ok (E i) := by simpa using hE 0 (by omega)
    obtain ⟨hr0, hc0⟩ := hr 0 (by omega)
    rw [Nat.add_zero] at hr0 hc0
    have hany : sel.any (fun k => decide ((E i).cols ≤ k)) = false := by
      rw [List.any_eq_false]
      intro k hk
      have := hc0 k hk
      simp only [decide_eq_true_eq]
      omega
    obtain ⟨data, h1, h2⟩ := ih (i + 1)
      (fun a b c => if a = i then (E i).power (if (E i).rows = w.doppler.length then b else 0) (sel.getD c 0) else mem a b c)
      (by omega)
      (fun a h => by
        have := hE (a + 1) (by omega)
        rw [List.getElem_cons_succ] at this
        rw [this]
        congr 2
        omega)
      (fun a h => by
        have := hr (a + 1) (by omega)
        rwa [show i + (a + 1) = i + 1 + a by omega] at this)
    refine ⟨data, ?_, fun a b c => ?_⟩
    · unfold fill
      rw [h0]
      dsimp only
      rw [hany, if_neg Bool.false_ne_true, if_neg (by omega), if_pos (Or.inl hr0), h1]
    · rw [h2 a b c, List.length_cons]
      by_cases ha : a = i
      · subst ha
        rw [if_neg (by omega), if_pos rfl, if_pos hr0, if_pos (by omega)]
      · by_cases hb : i + 1 ≤ a ∧ a < i + 1 + lines.length
        · rw [if_pos hb, if_pos (by omega)]
        · rw [if_neg hb, if_neg ha, if_neg (by omega)]

/-- What `receive` returns if all lines can be estimated. -/
theorem receive_ok (o : Operator) (w : Waveform) (hw : o.waveform = some w) (mem : ℕ → ℕ → ℕ → ℝ) (streams : List (List ℂ)) (fc : ℝ)
    (hfc : 0 ≤ fc) (angles : List (List ℝ)) (lines : List (List ℂ)) (hb : beamform o.beamformer streams = .ok (angles, lines))
    (hl : lines.length ≤ angles.length) (bins : List ℝ) (hbins : w.bins = .ok bins) (E : ℕ → Estimate)
    (hE : ∀ a (h : a < lines.length), w.estimate lines[a] = .ok (E a))
    (hr : ∀ a < lines.length, (E a).rows = w.doppler.length ∧ bins.length ≤ (E a).cols) :
    ∃ cube : Cube ℝ, (o.receive mem streams fc = match o.detector with
        | none => .ok (cube, none)
        | some d => match d cube with
          | .error e => .error e
          | .ok cloud => .ok (cube, some cloud)) ∧
      cube.na = angles.length ∧ cube.nb = w.doppler.length ∧ cube.nc = (select o.minRange bins).length ∧ cube.angle = angles ∧
      cube.doppler = w.doppler ∧ cube.range = (select o.minRange bins).map (fun k => bins.getD k 0) ∧ cube.fc = fc ∧
      ∀ a b c, cube.data (a, b, c) =
        if a < lines.length then (E a).power b ((select o.minRange bins).getD c 0) else mem a b c := by
  obtain ⟨data, h1, h2⟩ := fill_ok w angles.length (select o.minRange bins) E lines 0 mem (by omega)
    (fun a h => by rw [hE a h, Nat.zero_add])
    (fun a h => by
      rw [Nat.zero_add]
      refine ⟨(hr a h).1, fun k hk => ?_⟩
      have := ((mem_select _ _ _).mp hk).1
      have := (hr a h).2
      omega)
  unfold Operator.receive
  rw [hw]
  dsimp only
  rw [hb]
  dsimp only
  rw [hbins]
  dsimp only
  rw [h1]
  unfold mkCube
  dsimp only
  rw [if_neg (by simp), if_neg (by simp), if_neg (by simp), if_neg (not_lt.mpr hfc)]
  refine ⟨_, rfl, rfl, rfl, rfl, rfl, rfl, rfl, rfl, fun a b c => ?_⟩
  dsimp only
  rw [h2 a b c]
  simp

/-- C94, cubes: received with a beamformer, or as a single stream without one, a signal yields the cube of the estimates of
all lines, at the ranges not less than the minimum, in their order, whatever the allocated memory held before; its bins are
those of the waveform and the focus points, and the detector sees this cube. -/
theorem C94_cube_partial (o : Operator) (w : Waveform) (hw : o.waveform = some w) (mem : ℕ → ℕ → ℕ → ℝ) (streams : List (List ℂ))
    (fc : ℝ) (hfc : 0 ≤ fc) (angles : List (List ℝ)) (lines : List (List ℂ))
    (hcase : (o.beamformer = none ∧ streams.length = 1 ∧ angles = [[0, 0]] ∧ lines = streams) ∨
      (∃ b, o.beamformer = some b ∧ 2 ≤ streams.length ∧ b.outputs streams.length = 1 ∧
        angles = b.focus.map (·.headD []) ∧ lines = (b.probe streams).map (·.headD []) ∧
        (b.probe streams).length = b.focus.length))
    (bins : List ℝ) (hbins : w.bins = .ok bins) (E : ℕ → Estimate)
    (hE : ∀ a (h : a < lines.length), w.estimate lines[a] = .ok (E a))
    (hr : ∀ a < lines.length, (E a).rows = w.doppler.length ∧ bins.length ≤ (E a).cols) :
    ∃ (cube : Cube ℝ) (sel : List ℕ), (∀ k, k ∈ sel ↔ k < bins.length ∧ o.minRange ≤ bins.getD k 0) ∧ sel.Pairwise (· < ·) ∧
      (o.detector = none → o.receive mem streams fc = .ok (cube, none)) ∧
      (∀ d cloud, o.detector = some d → d cube = .ok cloud → o.receive mem streams fc = .ok (cube, some cloud)) ∧
      (∀ d e, o.detector = some d → d cube = .error e → o.receive mem streams fc = .error e) ∧
      cube.na = lines.length ∧ cube.angle = angles ∧ cube.doppler = w.doppler ∧ cube.nb = w.doppler.length ∧ cube.fc = fc ∧
      cube.nc = sel.length ∧ cube.range = sel.map (fun k => bins.getD k 0) ∧
      ∀ a < cube.na, ∀ b < cube.nb, ∀ c (h : c < sel.length), cube.data (a, b, c) = (E a).power b sel[c] := by
  have hb : beamform o.beamformer streams = .ok (angles, lines) ∧ lines.length = angles.length := by
    rcases hcase with ⟨h1, h2, h3, h4⟩ | ⟨b, h1, h2, h3, h4, h5, h6⟩
    · unfold beamform
      rw [h1, h3, h4, h2]
      simp
    · unfold beamform
      rw [h1, h4, h5]
      dsimp only
      rw [if_pos (by omega), h3]
      simp [h6]
  obtain ⟨cube, h1, h2, h3, h4, h5, h6, h7, h8, h9⟩ := receive_ok o w hw mem streams fc hfc angles lines hb.1 hb.2.le bins hbins
    E hE hr
  refine ⟨cube, select o.minRange bins, mem_select _ _, select_sorted _ _, ?_, ?_, ?_, ?_, h5, h6, h3, h8, h4, h7, ?_⟩
  · intro hd
    rw [h1, hd]
  · intro d cloud hd hc
    rw [h1, hd]
    dsimp only
    rw [hc]
  · intro d e hd hc
    rw [h1, hd]
    dsimp only
    rw [hc]
  · rw [h2, hb.2]
  · intro a ha b _ c hc
    rw [h2, ← hb.2] at ha
    rw [h9, if_pos ha, List.getD_eq_getElem?_getD, List.getElem?_eq_getElem hc]
    rfl

/-- C94, cubes: if a beamformer focusing several points is configured and a single stream is received, all angles but the
first show what the allocated memory happened to hold. -/
theorem C94_memory_fails (o : Operator) (w : Waveform) (hw : o.waveform = some w) (mem : ℕ → ℕ → ℕ → ℝ) (stream : List ℂ)
    (fc : ℝ) (hfc : 0 ≤ fc) (b : Beamformer) (hb : o.beamformer = some b) (h2 : 2 ≤ b.focus.length) (hd : o.detector = none)
    (bins : List ℝ) (hbins : w.bins = .ok bins) (e : Estimate) (hE : w.estimate stream = .ok e)
    (hr : e.rows = w.doppler.length ∧ bins.length ≤ e.cols) :
    ∃ cube : Cube ℝ, o.receive mem [stream] fc = .ok (cube, none) ∧ cube.na = b.focus.length ∧
      ∀ i, 1 ≤ i → i < cube.na → ∀ j k, cube.data (i, j, k) = mem i j k := by
  obtain ⟨cube, h1, h2', _, _, _, _, _, _, h9⟩ := receive_ok o w hw mem [stream] fc hfc (b.focus.map (·.headD [])) [stream]
    (by unfold beamform; rw [hb]; simp) (by simp only [List.length_singleton, List.length_map]; omega) bins hbins (fun _ => e)
    (fun a h => by
      simp only [List.length_singleton, Nat.lt_one_iff] at h
      subst h
      exact hE)
    (fun _ _ => hr)
  rw [hd] at h1
  refine ⟨cube, h1, by rw [h2', List.length_map], fun i hi _ j k => ?_⟩
  rw [h9, if_neg (by simp only [List.length_singleton]; omega)]

/-- C94, refusals: without waveform nothing is transmitted or received; several streams require a beamformer of a single
output; several ports to transmit from are refused; negative minimum ranges are refused. -/
theorem C94_refused (o : Operator) (mem : ℕ → ℕ → ℕ → ℝ) (streams : List (List ℂ)) (fc : ℝ) (ports : ℕ) :
    (o.waveform = none → o.receive mem streams fc = .error .runtime ∧ o.transmit ports = .error .runtime) ∧
    (2 ≤ streams.length → (∀ b, o.beamformer = some b → b.outputs streams.length ≠ 1) →
      o.receive mem streams fc = .error .runtime) ∧
    (∀ w signal, o.waveform = some w → w.ping = .ok signal →
      (2 ≤ ports → o.transmit ports = .error .runtime) ∧ (ports ≤ 1 → o.transmit ports = .ok signal)) ∧
    (∀ x : ℝ, (x < 0 → o.setMinRange x = .error .value) ∧ (0 ≤ x → o.setMinRange x = .ok { o with minRange := x })) := by
  refine ⟨fun h => ?_, fun h hb => ?_, fun w signal hw hp => ⟨fun h => ?_, fun h => ?_⟩, fun x => ⟨fun h => ?_, fun h => ?_⟩⟩
  · unfold Operator.receive Operator.transmit
    rw [h]
    exact ⟨rfl, rfl⟩
  · unfold Operator.receive
    cases o.waveform with
    | none => rfl
    | some w =>
      have : beamform o.beamformer streams = .error .runtime := by
        unfold beamform
        dsimp only
        rw [if_pos (by omega)]
        cases hbf : o.beamformer with
        | none => rfl
        | some b =>
          dsimp only
          split
          · rfl
          · rw [if_pos (hb b hbf)]
      dsimp only
      rw [this]
  · unfold Operator.transmit
    rw [hw]
    dsimp only
    rw [hp]
    dsimp only
    rw [if_pos (by omega)]
  · unfold Operator.transmit
    rw [hw]
    dsimp only
    rw [hp]
    dsimp only
    rw [if_neg (by omega)]
  · exact if_pos h
  · exact if_neg (not_lt.mpr h)

/-- C94, resolution: the announced velocity resolution is half of the distance between the velocities of neighbouring bins
of the cubes of an FMCW radar. -/
theorem C94_resolution_fails (o : Operator) (f : Fmcw) (resample : ℝ → List ℂ → List ℂ) (decimate : ℕ → List ℂ → List ℂ) (B : ℝ)
    (os : ℕ) (hw : o.waveform = some (ofFmcw f resample decimate B os)) (hi : 0 < f.interval) (fc : ℝ) (hfc : 0 < fc)
    (cube : Cube ℝ) (hcube : cube.doppler = f.dopplerBins ∧ cube.fc = fc) (j : ℕ) (hj : j + 1 < f.chirps) :
    ∃ r v v', o.velocityResolution fc = .ok r ∧ velocityBin light cube j = .ok v ∧ velocityBin light cube (j + 1) = .ok v' ∧
      0 < r ∧ v' - v = 2 * r := by
  have hl := light_pos
  have hc : (0 : ℝ) < f.chirps := by
    have : 0 < f.chirps := by omega
    exact_mod_cast this
  have hres : 0 < f.dopplerResolution := by
    unfold Fmcw.dopplerResolution Fmcw.frameDuration
    positivity
  refine ⟨0.5 * f.dopplerResolution * light / fc, ((j : ℝ) - f.chirps / 2) * f.dopplerResolution * light / fc,
    (((j + 1 : ℕ) : ℝ) - f.chirps / 2) * f.dopplerResolution * light / fc, ?_, ?_, ?_, by positivity, ?_⟩
  rotate_left
  · unfold velocityBin
    rw [hcube.1, hcube.2, if_neg (not_le.mpr hfc), dopplerBins_get f hi j (by omega)]
  · unfold velocityBin
    rw [hcube.1, hcube.2, if_neg (not_le.mpr hfc), dopplerBins_get f hi (j + 1) hj]
  · push_cast
    ring
  · unfold Operator.velocityResolution
    rw [hw]
    dsimp only
    rw [if_neg hfc.ne']
    rfl

/-! ### Detection with FMCW -/

theorem power_nonneg (f : Fmcw) (resample : ℝ → List ℂ → List ℂ) (decimate : ℕ → List ℂ → List ℂ) (signal : List ℂ) (B : ℝ) (os : ℕ)
    (e : Estimate) (h : f.estimate resample decimate signal B os = .ok e) (i j : ℕ) : 0 ≤ e.power i j := by
  unfold Fmcw.estimate at h
  dsimp only at h
  repeat' split at h
  all_goals first
    | cases h
      exact sq_nonneg _
    | cases h

/-- A bin exceeding all others is found. -/
theorem argmax_unique {K : Type} [LinearOrder K] (d : ℕ × ℕ × ℕ → K) (l : List (ℕ × ℕ × ℕ)) (p : ℕ × ℕ × ℕ) (hp : p ∈ l)
    (h : ∀ q ∈ l, q ≠ p → d q < d p) : argmax d l = some p := by
  cases hm : argmax d l with
  | none =>
    cases l with
    | nil => simp at hp
    | cons x l => simp [argmax] at hm
  | some q =>
    obtain ⟨h1, h2⟩ := argmax_spec _ _ _ hm
    by_contra hne
    exact absurd (h2 p hp) (not_le.mpr (h q h1 fun he => hne (by rw [he])))

/-- C94, detection: an FMCW radar receiving the echo of a target moving away at the velocity `vel` in a distance of `k` range
resolutions, over a single stream without beamformer, with the maximum detector and a minimum range not exceeding this distance,
reports exactly one point: in front of the radar, at `n / (n - 1)` times the distance, moving towards the radar. -/
theorem C94_detection_partial (f : Fmcw) (B : ℝ) (hB : 0 < B) (os n p k : ℕ) (hos : 0 < os) (hT : f.duration * B = n)
    (hP : f.interval * (B * os) = p) (hadc : f.adc = 0) (he : f.chirps % 2 = 0) (resample : ℝ → List ℂ → List ℂ)
    (decimate : ℕ → List ℂ → List ℂ) (hres : ∀ x, resample (f.adc / (B * os)) x = ideal (1 * os) x)
    (hdec : ∀ x, decimate os x = ideal os x) (hguard : k * os + n * os ≤ p) (hk : k + 2 ≤ n) (A : ℂ) (hA : A ≠ 0)
    (fc vel : ℝ) (hfc : 0 < fc) (μ : ℤ) (hμ : vel = μ * f.dopplerResolution * light / fc) (hμ1 : 2 * |μ| < f.chirps)
    (signal : List ℂ) (hs : ∀ r < f.chirps, ∀ i < p, signal.getD (r * p + i) 0 =
      A * Verif.RadarChannel.weight (2 * vel) fc (B * os) 0 (r * p) *
        if k * os ≤ i ∧ i < k * os + n * os then f.sample B os (i - k * os) else 0)
    (o : Operator) (hw : o.waveform = some (ofFmcw f resample decimate B os)) (hb : o.beamformer = none)
    (hd : o.detector = some (maxDetect realTrig light)) (hmin : o.minRange ≤ k * rangeResolution B) (mem : ℕ → ℕ → ℕ → ℝ) :
    ∃ cube x, o.receive mem [signal] fc = .ok (cube, some [x]) ∧
      x.pos = (0, 0, (n : ℝ) / ((n : ℝ) - 1) * (k * rangeResolution B)) ∧ x.vel = (0, 0, -vel) := by
  obtain ⟨e, ρ, label, h1, h2, h3, h4, h5, h6, h7⟩ := C93_velocity_fails f B hB os 1 n n p k hos one_pos (by omega) hT hP
    (Or.inl ⟨rfl, hadc⟩) he resample decimate hres hdec hguard (by omega) A hA fc vel hfc μ hμ hμ1 signal hs
  rw [Nat.one_mul, Nat.mod_eq_of_lt (by omega : k < n)] at h5
  have hn1 : (0 : ℝ) < (n : ℝ) - 1 := by
    have : (2 : ℝ) ≤ n := by
      have : 2 ≤ n := by omega
      exact_mod_cast this
    linarith
  have hn0 : (0 : ℝ) < n := by linarith
  have hl := light_pos
  have hrr : 0 < rangeResolution B := by unfold rangeResolution; positivity
  set bins := (List.range n).map fun (k : ℕ) => (k : ℝ) * (light * f.duration / 2) / ((n : ℝ) - 1) with hbins
  have hbl : bins.length = n := by simp [hbins]
  have hbv : bins.getD k 0 = (n : ℝ) / ((n : ℝ) - 1) * (k * rangeResolution B) := by
    rw [List.getD_eq_getElem?_getD, hbins, List.getElem?_map, List.getElem?_range (by omega)]
    simp only [Option.map_some, Option.getD_some]
    unfold rangeResolution
    rw [show f.duration = n / B by rw [← hT]; field_simp]
    field_simp
  have hsel : k ∈ select o.minRange bins := by
    rw [mem_select, hbl, hbv]
    refine ⟨by omega, hmin.trans ?_⟩
    have h8 : (1 : ℝ) ≤ (n : ℝ) / ((n : ℝ) - 1) := by
      rw [le_div_iff₀ hn1]
      linarith
    have h9 : 0 ≤ k * rangeResolution B := by positivity
    nlinarith
  obtain ⟨c, hc, hck⟩ := List.mem_iff_getElem.mp hsel
  have hdl : (ofFmcw f resample decimate B os).doppler.length = f.chirps := by simp [ofFmcw, Fmcw.dopplerBins]
  obtain ⟨cube, g1, g2, g3, g4, g5, g6, g7, g8, g9⟩ := receive_ok o _ hw mem [signal] fc hfc.le [[0, 0]] [signal]
    (by unfold beamform; rw [hb]; simp) le_rfl bins (rangeBins_value f B hB n hT) (fun _ => e)
    (fun a h => by
      simp only [List.length_singleton, Nat.lt_one_iff] at h
      subst h
      exact h1)
    (fun _ _ => ⟨by rw [h2, hdl], by rw [hbl, h3]⟩)
  rw [hdl] at g3
  simp only [List.length_singleton] at g2
  have hdata : ∀ j c, cube.data (0, j, c) = e.power j ((select o.minRange bins).getD c 0) := by
    intro j c
    rw [g9, if_pos (by simp)]
  have hcd : (select o.minRange bins).getD c 0 = k := by
    rw [List.getD_eq_getElem?_getD, List.getElem?_eq_getElem hc, Option.getD_some, hck]
  have hmax : argmax cube.data cube.idxs = some (0, ρ, c) := by
    refine argmax_unique _ _ _ ((mem_idxs _ _ _ _).mpr ⟨by omega, by omega, by omega⟩) fun q hq hne => ?_
    obtain ⟨a, j, c'⟩ := q
    obtain ⟨ha, hj, hc'⟩ := (mem_idxs _ _ _ _).mp hq
    have ha0 : a = 0 := by omega
    subst ha0
    rw [g4] at hc'
    have hc1 : (select o.minRange bins).getD c' 0 = (select o.minRange bins)[c'] := by
      rw [List.getD_eq_getElem?_getD, List.getElem?_eq_getElem hc', Option.getD_some]
    have hlt : (select o.minRange bins)[c'] < n := by
      have := ((mem_select _ _ _).mp (List.getElem_mem hc')).1
      omega
    rw [hdata, hdata, hcd, hc1]
    refine h5 j (by omega) _ hlt fun heq => hne ?_
    rw [Prod.mk.injEq] at heq
    have hnd : (select o.minRange bins).Nodup := (select_sorted _ _).imp fun h => Nat.ne_of_lt h
    have : c' = c := (List.Nodup.getElem_inj_iff hnd).mp (by rw [heq.2, hck])
    rw [heq.1, this]
  have hpos : 0 < cube.data (0, ρ, c) := by
    rw [hdata, hcd]
    have h8 := power_nonneg f resample decimate signal B os e h1 ρ (k + 1)
    have h9 := h5 ρ h4 (k + 1) (by omega) (by simp)
    linarith
  have hrange : cube.range[c]? = some ((n : ℝ) / ((n : ℝ) - 1) * (k * rangeResolution B)) := by
    rw [g7, List.getElem?_map, List.getElem?_eq_getElem hc, hck, Option.map_some, hbv]
  have hcloud : newCloud cube = .ok () := by
    unfold newCloud
    cases hm : maxOf cube.range with
    | error x =>
      cases hx : cube.range with
      | nil => rw [hx] at hrange; simp at hrange
      | cons y ys => rw [hx] at hm; simp [maxOf] at hm
    | ok m =>
      have h8 := ((maxOf_spec _ _).mp hm).2 _ (List.mem_of_getElem? hrange)
      have h9 : 0 ≤ (n : ℝ) / ((n : ℝ) - 1) * (k * rangeResolution B) := by positivity
      dsimp only
      rw [if_neg (by linarith)]
  have hdop : cube.doppler[ρ]? = some label := by
    rw [g6]
    exact h6
  refine ⟨cube, ⟨scale ((n : ℝ) / ((n : ℝ) - 1) * (k * rangeResolution B)) (normal realTrig 0 0),
    scale (label * light / fc) (normal realTrig 0 0), cube.data (0, ρ, c)⟩, ?_, ?_, ?_⟩
  · rw [g1, hd]
    dsimp only
    unfold maxDetect
    rw [hmax]
    dsimp only
    rw [hcloud]
    dsimp only
    rw [if_neg (not_le.mpr hpos), g5]
    unfold velocityBin fromSpherical
    simp only [List.getElem?_cons_zero]
    rw [g8, if_neg (not_le.mpr hfc), hdop]
    dsimp only
    rw [hrange]
    dsimp only
    rw [if_neg (not_le.mpr hpos)]
  · simp [scale, normal, realTrig]
  · rw [h7]
    simp [scale, normal, realTrig]

/-! ### Storage -/

/-- What is stored of a radar operator; objects by reference. -/
structure Config where
  waveform : Option ℕ
  beamformer : Option ℕ
  detector : Option ℕ
  minRange : ℝ
  carrier : Option ℝ
  receivePorts : Option (List ℤ)
  transmitPorts : Option (List ℤ)

/-- A stored array: a dataset or a link to the one written before. -/
inductive Stored where
  | data (l : List ℤ)
  | link

/-- The file written by `serialize`, `radar/radar.py` 487-495 and 796-800, `core/device.py` 582-585, 748-754 and 1028-1034;
ports are arrays created for the purpose, at the addresses `a` and `b`, and arrays at addresses known from before are written as
links (`core/factory.py` 884-902).  Objects stored are restored as they were (C32). -/
structure File where
  waveform : Option ℕ
  beamformer : Option ℕ
  detector : Option ℕ
  minRange : ℝ
  carrier : Option ℝ
  receivePorts : Option (List ℤ)
  transmitPorts : Option Stored

/-- See `File`. -/
def Config.store (c : Config) (a b : ℕ) : File where
  waveform := c.waveform
  beamformer := c.beamformer
  detector := c.detector
  minRange := c.minRange
  carrier := c.carrier
  receivePorts := c.receivePorts
  transmitPorts := c.transmitPorts.map fun l => if c.receivePorts.isSome ∧ a = b then .link else .data l

open Classical in
/-- `Deserialize`, `radar/radar.py` 497-511 and 802-807, `core/device.py` 587-596, 756-763 and 1036-1043: a radar created with
the stored parameters. -/
noncomputable def File.restore (f : File) : Except PyErr Config :=
  if f.carrier.any (fun x => decide (x < 0)) then .error .value
  else if f.minRange < 0 then .error .value
  else .ok ⟨f.waveform, f.beamformer, f.detector, f.minRange, f.carrier, f.receivePorts, f.transmitPorts.bind fun
    | .data l => some l
    | .link => f.receivePorts⟩

/-- C94, storage: a stored radar is restored as it was unless the arrays of its ports were created at the same address. -/
theorem C94_store_partial (c : Config) (a b : ℕ) (hm : 0 ≤ c.minRange) (hc : ∀ x, c.carrier = some x → 0 ≤ x)
    (hab : c.receivePorts = none ∨ c.transmitPorts = none ∨ a ≠ b) : (c.store a b).restore = .ok c := by
  obtain ⟨wf, bf, dt, mr, ca, rx, tx⟩ := c
  unfold File.restore Config.store
  dsimp only at *
  rw [if_neg, if_neg (not_lt.mpr hm)]
  · congr 2
    cases tx with
    | none => rfl
    | some l =>
      rw [Option.map_some, Option.bind_some, if_neg]
      rintro ⟨h1, h2⟩
      rcases hab with h | h | h
      · rw [h] at h1
        cases h1
      · cases h
      · exact h h2
  · cases ca with
    | none => simp
    | some x => simpa using hc x rfl

/-- C94, storage: once written, the array of the ports to receive from is released, and the array of the ports to transmit from
may be created at its address; if so, the restored radar transmits from the ports to receive from. -/
theorem C94_store_fails (c : Config) (a : ℕ) (hm : 0 ≤ c.minRange) (hc : ∀ x, c.carrier = some x → 0 ≤ x) (rx tx : List ℤ)
    (hr : c.receivePorts = some rx) (ht : c.transmitPorts = some tx) (hne : rx ≠ tx) :
    ∃ d, (c.store a a).restore = .ok d ∧ d.transmitPorts = some rx ∧ d ≠ c := by
  obtain ⟨wf, bf, dt, mr, ca, rx', tx'⟩ := c
  dsimp only at *
  subst hr ht
  refine ⟨⟨wf, bf, dt, mr, ca, some rx, some rx⟩, ?_, rfl, ?_⟩
  · unfold File.restore Config.store
    dsimp only
    rw [if_neg, if_neg (not_lt.mpr hm)]
    · simp
    · cases ca with
      | none => simp
      | some x => simpa using hc x rfl
  · intro h
    injection h with _ _ _ _ _ _ h
    exact hne (Option.some.inj h)

/-! ### Examples -/

/-- Two streams, probed towards two points. -/
noncomputable def exampleBeamformer : Beamformer := ⟨fun _ => 1, fun s => s.map fun l => [l], [[[0, 0]], [[1, 0]]]⟩

/-- A waveform of one Doppler and two range bins showing the number of samples. -/
noncomputable def exampleWaveform : Waveform :=
  ⟨.ok [0, 1], [0], 1, .ok [1], fun s => .ok ⟨1, 2, fun _ k => s.length + k⟩⟩

noncomputable def exampleOperator : Operator := ⟨some exampleWaveform, some exampleBeamformer, none, 1⟩

example : ∃ cube, exampleOperator.receive (fun _ _ _ => 7) [[1], [1, 1]] 1 = .ok (cube, none) ∧ cube.range = [1] ∧
    cube.data (0, 0, 0) = 2 ∧ cube.data (1, 0, 0) = 3 := by
  obtain ⟨cube, sel, h1, h2, h3, -, -, h4, h5, h6, h7, h8, h9, h10, h11⟩ := C94_cube_partial exampleOperator exampleWaveform rfl
    (fun _ _ _ => 7) [[1], [1, 1]] 1 zero_le_one [[0, 0], [1, 0]] [[1], [1, 1]]
    (Or.inr ⟨exampleBeamformer, rfl, le_rfl, rfl, rfl, rfl, rfl⟩) [0, 1] rfl
    (fun a => ⟨1, 2, fun _ k => (a + 1 : ℕ) + k⟩)
    (fun a h => by
      have : a = 0 ∨ a = 1 := by simp at h; omega
      rcases this with rfl | rfl <;> rfl)
    (fun _ _ => ⟨rfl, le_rfl⟩)
  have hsel : sel = [1] := by
    have h12 : ∀ k, k ∈ sel ↔ k = 1 := by
      intro k
      rw [h1]
      constructor
      · rintro ⟨h, h'⟩
        simp only [List.length_cons, List.length_nil] at h
        have : k = 0 ∨ k = 1 := by omega
        rcases this with rfl | rfl
        · exact absurd h' (by simp [exampleOperator])
        · rfl
      · rintro rfl
        simp [exampleOperator]
    match sel, h2, h12 with
    | [], _, h => exact absurd ((h 1).mpr rfl) (by simp)
    | [x], _, h => rw [(h x).mp (by simp)]
    | x :: y :: l, h2, h =>
      have hx := (h x).mp (by simp)
      have hy := (h y).mp (by simp)
      have := List.rel_of_pairwise_cons h2 (List.mem_cons_self (a := y) (l := l))
      omega
  subst hsel
  refine ⟨cube, h3 rfl, by rw [h10]; rfl, ?_, ?_⟩
  · have := h11 0 (by rw [h4]; decide) 0 (by rw [h7]; decide) 0 (by decide)
    rw [this]
    norm_num
  · have := h11 1 (by rw [h4]; decide) 0 (by rw [h7]; decide) 0 (by decide)
    rw [this]
    norm_num

example : ∃ cube, exampleOperator.receive (fun _ _ _ => 7) [[1]] 1 = .ok (cube, none) ∧ cube.data (1, 0, 0) = 7 := by
  obtain ⟨cube, h1, h2, h3⟩ := C94_memory_fails exampleOperator exampleWaveform rfl (fun _ _ _ => 7) [1] 1 zero_le_one
    exampleBeamformer rfl le_rfl rfl [0, 1] rfl _ rfl ⟨rfl, le_rfl⟩
  exact ⟨cube, h1, h3 1 le_rfl (by rw [h2]; decide) 0 0⟩

/-- A moving target in front of the radar of `Verif.FmcwRadar.example1`: its echo meets the conditions of detection. -/
example : example1.duration * 10 = (10 : ℕ) ∧ example1.interval * (10 * (2 : ℕ)) = (40 : ℕ) ∧ example1.adc = 0 ∧
    example1.chirps % 2 = 0 ∧ 3 * 2 + 10 * 2 ≤ 40 ∧ 3 + 2 ≤ 10 ∧ 2 * |(1 : ℤ)| < example1.chirps := by
  refine ⟨by norm_num [example1], by norm_num [example1], rfl, rfl, by decide, by decide, ?_⟩
  norm_num [example1]

example : ∃ d, (Config.store ⟨none, none, none, 0, none, some [0], some [1]⟩ 5 5).restore = .ok d ∧
    d.transmitPorts = some [0] := by
  obtain ⟨d, h1, h2, _⟩ := C94_store_fails ⟨none, none, none, 0, none, some [0], some [1]⟩ 5 le_rfl (by simp) [0] [1] rfl rfl
    (by decide)
  exact ⟨d, h1, h2⟩

end Verif.RadarOperator
