import Verif.Radar.MatchedFilter
import Verif.Modem.Multipath

/-!
# C96: radar sensing by OFDM frames

`OFDMRadar`, `jcas/ofdm_radar.py` 30-260, and the parts of `DuplexJCASOperator` (`jcas/jcas.py`) it uses, on top of the OFDM
waveforms of C55 and C73.  Parameters are real numbers, samples complex numbers.
-/

namespace Verif.OfdmRadar

open Verif.FmcwRadar Verif.Radar Verif.RadarOperator Verif.Signal Verif.Modem Verif.Dft
open Complex (exp I)

/-- Attributes of the operator.  The waveform comes with its flag `dc_suppression`; `references` are the pilot symbols of a
frame; `last` holds the mapped symbols of the frames transmitted last (`jcas/ofdm_radar.py` 94, 167-171). -/
structure Sensor where
  waveform : Option (Wave ℂ × Bool)
  references : List ℂ
  beamformer : Option Beamformer
  detector : Option (Cube ℝ → Except PyErr (List (Point ℝ)))
  minRange : ℝ
  last : Option (List (List ℂ))

open Classical in
/-- The number of frames of a transmission, `modem/modem.py` 798-805. -/
noncomputable def numFrames (duration T : ℝ) : ℕ :=
  (truncInt ((if duration ≤ 0 then T else duration) / T)).toNat

open Classical in
/-- `_transmit`, `jcas/ofdm_radar.py` 167-171 and `modem/modem.py` 797-888, of which only the symbols of the frames are modelled;
`data n` are the symbols mapped for frame `n`. -/
noncomputable def Sensor.transmit (o : Sensor) (data : ℕ → List ℂ) (B : ℚ) (duration : ℝ) : Except PyErr Sensor :=
  match o.waveform with
  | none => .error .runtime
  | some (w, _) =>
    if w.frameDuration B = 0 then .error .zeroDivision
    else .ok { o with last := some ((List.range (numFrames duration (w.frameDuration B : ℝ))).map data) }

/-- `range_resolution`, `jcas/ofdm_radar.py` 117-133. -/
noncomputable def resolution (B : ℚ) : ℝ := light / (2 * (B : ℝ))

/-- `max_range`, `jcas/ofdm_radar.py` 96-115. -/
noncomputable def Sensor.maxRange (o : Sensor) (B : ℚ) : ℝ :=
  match o.waveform with
  | none => 0
  | some (w, _) => light * w.numSubcarriers / (2 * (B : ℝ))

/-- `doppler_bins`, `jcas/ofdm_radar.py` 135-161 and 222-224, of frames of duration `T`. -/
noncomputable def dopplerBins (W : ℕ) (T : ℝ) : List ℝ :=
  (List.range W).map fun (i : ℕ) => (i : ℝ) * (1 / (2 * T)) - 1 / (4 * T)

open Classical in
/-- `normalized_symbols`, `jcas/ofdm_radar.py` 195-200. -/
noncomputable def normalized (rx tx : ℂ) : ℂ := if tx = 0 then 0 else rx / tx

/-- `__estimate_range`, `jcas/ofdm_radar.py` 195-204, of the demodulated and transmitted grids; `ifftshift` takes entry `i` from
`(i + W // 2) % W`. -/
noncomputable def profile (W N : ℕ) (rx tx : ℕ → ℕ → ℂ) (i r : ℕ) : ℝ :=
  ‖fft .backward W (fun v => ifft .backward N (fun j => normalized (rx v j) (tx v j)) r) ((i + W / 2) % W)‖

/-- The loop over lines, `jcas/ofdm_radar.py` 234-239, with the array allocated before as `mem`.  The rows of the estimate from `m`
on are assigned to `W` rows of `N - m` values: shapes must be equal or one. -/
noncomputable def fill (W N m angles : ℕ) (estimate : List ℂ → Except PyErr (ℕ → ℕ → ℝ)) :
    ℕ → List (List ℂ) → (ℕ → ℕ → ℕ → ℝ) → Except PyErr (ℕ → ℕ → ℕ → ℝ)
  | _, [], mem => .ok mem
  | i, line :: lines, mem =>
    match estimate line with
    | .error e => .error e
    | .ok e =>
      if angles ≤ i then .error .index
      else if (W - m = W ∨ W - m = 1) ∧ (N = N - m ∨ N = 1) then
        fill W N m angles estimate (i + 1) lines fun a b c =>
          if a = i then e (if W - m = W then m + b else m) (if N = N - m then c else 0) else mem a b c
      else .error .value

/-- The estimate of a line, `jcas/ofdm_radar.py` 173-204. -/
noncomputable def estimate (w : Wave ℂ) (dc : Bool) (B : ℚ) (os : ℕ) (tx : List (List ℂ)) (line : List ℂ) :
    Except PyErr (ℕ → ℕ → ℝ) :=
  match w.demodulate (ofdmBackward w.numSubcarriers os dc) (ofdmCorrect w.numSubcarriers os dc) B os line with
  | .error e => .error e
  | .ok rx => .ok (profile w.wordsPerFrame w.numSubcarriers (toFn2 rx) (toFn2 tx))

/-- `_receive`, `jcas/ofdm_radar.py` 206-255, of a signal given by its streams, for a device of bandwidth `B`, oversampling `os` and
carrier frequency `fc`.  `comm` is the outcome of receiving as a modem, `mem` what the memory of `np.empty` holds. -/
noncomputable def Sensor.receive (o : Sensor) (comm : Except PyErr Unit) (mem : ℕ → ℕ → ℕ → ℝ) (streams : List (List ℂ)) (B : ℚ)
    (os : ℕ) (fc : ℝ) : Except PyErr (Cube ℝ × Option (List (Point ℝ))) :=
  match o.last with
  | none => .error .runtime
  | some frames =>
    match o.waveform with
    | none => .error .attribute
    | some (w, dc) =>
      match w.place frames.flatten o.references with
      | .error e => .error e
      | .ok tx =>
        match comm with
        | .error e => .error e
        | .ok () =>
          match beamform o.beamformer streams with
          | .error e => .error e
          | .ok (angles, lines) =>
            let N := w.numSubcarriers
            let W := w.wordsPerFrame
            if w.frameDuration B = 0 then .error .zeroDivision
            else
              let m := ⌈o.minRange / resolution B⌉.toNat
              match fill W N m angles.length (estimate w dc B os tx) 0 lines mem with
              | .error e => .error e
              | .ok data =>
                match mkCube ⟨[angles.length, W, N - m], fun
                    | [a, b, c] => data a b c
                    | _ => 0⟩ (some angles) (some (dopplerBins W (w.frameDuration B : ℝ)))
                    (some ((List.range (N - m)).map fun (i : ℕ) => ((m + i : ℕ) : ℝ) * resolution B)) fc with
                | .error e => .error e
                | .ok cube =>
                  match o.detector with
                  | none => .ok (cube, none)
                  | some d =>
                    match d cube with
                    | .error e => .error e
                    | .ok cloud => .ok (cube, some cloud)

/-! ### Lines -/

/-- Without minimum range, lines write the rows of their indices and nothing else. -/
theorem fill_ok (W N angles : ℕ) (est : List ℂ → Except PyErr (ℕ → ℕ → ℝ)) (E : ℕ → ℕ → ℕ → ℝ) (lines : List (List ℂ)) :
    ∀ (i : ℕ) (mem : ℕ → ℕ → ℕ → ℝ), i + lines.length ≤ angles →
    (∀ a (h : a < lines.length), est lines[a] = .ok (E (i + a))) →
    ∃ data, fill W N 0 angles est i lines mem = .ok data ∧ ∀ a b c, data a b c =
      if i ≤ a ∧ a < i + lines.length then E a b c else mem a b c := by
  induction lines with
  | nil =>
    intro i mem _ _
    refine ⟨mem, rfl, fun a b c => ?_⟩
    rw [if_neg (by simp only [List.length_nil]; omega)]
  | cons line lines ih =>
    intro i mem hl hE
    simp only [List.length_cons] at hl hE
    have h0 : est line = .ok (E i) := by simpa using hE 0 (by omega)
    obtain ⟨data, h1, h2⟩ := ih (i + 1)
      (fun a b c => if a = i then E i (if W - 0 = W then 0 + b else 0) (if N = N - 0 then c else 0) else mem a b c)
      (by omega)
      (fun a h => by
        have := hE (a + 1) (by omega)
        rw [List.getElem_cons_succ] at this
        rw [this]
        congr 2
        omega)
    refine ⟨data, ?_, fun a b c => ?_⟩
    · unfold fill
      rw [h0]
      dsimp only
      rw [if_neg (by omega), if_pos ⟨Or.inl (Nat.sub_zero _), Or.inl (Nat.sub_zero _).symm⟩, h1]
    · rw [h2 a b c, List.length_cons]
      by_cases ha : a = i
      · subst ha
        rw [if_neg (by omega), if_pos rfl, if_pos (Nat.sub_zero _), if_pos (Nat.sub_zero _).symm, if_pos (by omega), Nat.zero_add]
      · by_cases hb : i + 1 ≤ a ∧ a < i + 1 + lines.length
        · rw [if_pos hb, if_pos (by omega)]
        · rw [if_neg hb, if_neg ha, if_neg (by omega)]

/-! ### Profiles -/

/-- The sum over words of a static scene. -/
theorem fft_const (W : ℕ) (c : ℂ) (b : ℕ) (hb : b < W) : fft .backward W (fun _ => c) b = if b = 0 then W * c else 0 := by
  have h := exp_orthogonal W (by omega) 0 b (by omega) hb
  have e : fft .backward W (fun _ => c) b = c * ∑ m ∈ Finset.range W,
      exp (2 * Real.pi * I * m * (0 : ℕ) / W) * exp (-(2 * Real.pi * I * m * b / W)) := by
    unfold fft
    rw [show Norm.fwd W .backward = 1 from rfl, one_mul, Finset.mul_sum]
    refine Finset.sum_congr rfl fun m _ => ?_
    rw [show (2 * Real.pi * I * b * m / W : ℂ) = 2 * Real.pi * I * m * b / W by ring]
    simp
  rw [e, h]
  by_cases hb0 : b = 0
  · subst hb0
    simp [mul_comm]
  · rw [if_neg (fun h => hb0 h.symm), if_neg hb0, mul_zero]

theorem fft_congr (norm : Norm) (n : Nat) (x y : Nat → ℂ) (m : Nat)
    (h : ∀ j < n, x j = y j) : fft norm n x m = fft norm n y m := by
  unfold fft
  congr 1
  refine Finset.sum_congr rfl fun j hj => ?_
  rw [h j (Finset.mem_range.1 hj)]

/-- The profile of a scene at rest seen on a grid without empty elements. -/
theorem profile_static (W N : ℕ) (rx tx : ℕ → ℕ → ℂ) (q : ℕ → ℂ) (htx : ∀ v < W, ∀ j < N, tx v j ≠ 0)
    (hrx : ∀ v < W, ∀ j < N, rx v j = q j * tx v j) (i : ℕ) (hi : i < W) (r : ℕ) :
    profile W N rx tx i r = if (i + W / 2) % W = 0 then W * ‖ifft .backward N q r‖ else 0 := by
  unfold profile
  rw [fft_congr _ _ _ (fun _ => ifft .backward N q r) _ (by
    intro v hv
    refine ifft_congr _ _ _ _ _ fun j hj => ?_
    unfold normalized
    rw [if_neg (htx v hv j hj), hrx v hv j hj, mul_div_cancel_right₀ _ (htx v hv j hj)]),
    fft_const _ _ _ (Nat.mod_lt _ (by omega))]
  split
  · rw [norm_mul, Complex.norm_natCast]
  · exact norm_zero

/-- Frequencies without suppression of direct current are consecutive. -/
theorem frequency_plain (N os : ℕ) (hos : 0 < os) (j : ℕ) :
    subcarrierFrequency N os false j = (j : ℤ) - (N / 2 : ℕ) := by
  unfold subcarrierFrequency
  have h1 : N / 2 ≤ os * N / 2 := Nat.div_le_div_right (Nat.le_mul_of_pos_left _ hos)
  have h2 : N * os = os * N := Nat.mul_comm _ _
  simp only [Bool.false_eq_true, false_and, if_false, h2]
  omega

/-- Echoes delayed by multiples of the oversampling factor, as a spectrum of `N` bins. -/
theorem response_plain (N os L : ℕ) (hN : 0 < N) (hos : 0 < os) (hL : L < N * os) (h : ℕ → ℂ)
    (hh : ∀ d ≤ L, ¬os ∣ d → h d = 0) (j : ℕ) :
    response (N * os) L h (subcarrierFrequency N os false j) = fft .backward N (fun k =>
      (if k * os ≤ L then h (k * os) else 0) * exp (2 * Real.pi * I * (N / 2 : ℕ) * k / N)) j := by
  have hN0 : (N : ℂ) ≠ 0 := by exact_mod_cast hN.ne'
  have hos0 : (os : ℂ) ≠ 0 := by exact_mod_cast hos.ne'
  rw [frequency_plain N os hos]
  unfold response fft
  rw [show Norm.fwd N .backward = 1 from rfl, one_mul]
  generalize hE : (fun d : ℕ => exp (-(2 * Real.pi * I * (((j : ℤ) - (N / 2 : ℕ) : ℤ) : ℂ) * d / ((N * os : ℕ) : ℂ)))) = E
  have e1 : ∑ d ∈ Finset.range (L + 1), h d * exp (-(2 * Real.pi * I * (((j : ℤ) - (N / 2 : ℕ) : ℤ) : ℂ) * d / ((N * os : ℕ) : ℂ))) =
      ∑ d ∈ Finset.range (N * os), if d ≤ L then h d * E d else 0 := by
    rw [← Finset.sum_subset (Finset.range_subset_range.2 (show L + 1 ≤ N * os by omega))]
    · refine Finset.sum_congr rfl fun d hd => ?_
      rw [Finset.mem_range] at hd
      rw [if_pos (by omega), ← hE]
    · intro d _ hd
      rw [Finset.mem_range] at hd
      rw [if_neg (by omega)]
  have e2 : ∑ d ∈ Finset.range (N * os), (if d ≤ L then h d * E d else 0) =
      ∑ d ∈ (Finset.range N).image (· * os), if d ≤ L then h d * E d else 0 := by
    refine (Finset.sum_subset ?_ ?_).symm
    · intro d hd
      obtain ⟨k, hk, rfl⟩ := Finset.mem_image.1 hd
      rw [Finset.mem_range] at hk ⊢
      exact Nat.mul_lt_mul_of_pos_right hk hos
    · intro d hd hn
      split
      · rw [hh d (by assumption), zero_mul]
        rintro ⟨k, rfl⟩
        refine hn (Finset.mem_image.2 ⟨k, ?_, Nat.mul_comm _ _⟩)
        rw [Finset.mem_range] at hd ⊢
        rw [Nat.mul_comm] at hd
        exact lt_of_mul_lt_mul_right hd (Nat.zero_le _)
      · rfl
  rw [e1, e2, Finset.sum_image (by
    intro a _ b _ hab
    exact Nat.eq_of_mul_eq_mul_right hos hab)]
  refine Finset.sum_congr rfl fun k _ => ?_
  dsimp only
  by_cases hk : k * os ≤ L
  · rw [if_pos hk, if_pos hk, mul_assoc, ← Complex.exp_add, ← hE]
    dsimp only
    generalize N / 2 = H
    congr 2
    push_cast
    field_simp
    ring
  · rw [if_neg hk, if_neg hk, zero_mul, zero_mul]

theorem norm_turn (x : ℕ) (k N : ℕ) : ‖exp (2 * Real.pi * I * x * k / N)‖ = 1 := by
  rw [show (2 * Real.pi * I * x * k / N : ℂ) = ((2 * Real.pi * x * k / N : ℝ) : ℂ) * I by push_cast; ring]
  exact Complex.norm_exp_ofReal_mul_I _

/-- Which Doppler bin shows what is at rest. -/
theorem rest_iff (W i : ℕ) (hi : i < W) : (i + W / 2) % W = 0 ↔ i = (W - W / 2) % W := by
  rcases Nat.lt_or_ge (i + W / 2) W with h | h
  · rw [Nat.mod_eq_of_lt h]
    rcases Nat.lt_or_ge W 2 with h2 | h2
    · have : W = 1 := by omega
      subst this
      omega
    · rw [Nat.mod_eq_of_lt (by omega)]
      omega
  · rw [Nat.mod_eq_sub_mod h, Nat.mod_eq_of_lt (by omega)]
    rcases Nat.lt_or_ge W 2 with h2 | h2
    · have : W = 1 := by omega
      subst this
      omega
    · rw [Nat.mod_eq_of_lt (by omega)]
      omega

/-! ### Cubes -/

/-- C96, scenes at rest: received with a beamformer, or as a single stream without one, lines which are static echoes of the
transmitted frame within its prefixes yield the cube of the transformed frequency responses of the lines, in a single Doppler bin,
whatever the allocated memory held before; ranges are multiples of the resolution, and the detector sees this cube. -/
theorem C96_cube_partial (o : Sensor) (w : Wave ℂ) (dc : Bool) (hw : o.waveform = some (w, dc)) (data : List ℂ)
    (hlast : o.last = some [data]) (hN : 0 < w.numSubcarriers) (hfit : w.Fits) (hd : data.length = w.numDataSymbols)
    (href : o.references.length = w.referencesPerFrame) (hmin : o.minRange = 0) (B : ℚ) (os : ℕ) (hos : 0 < os) (fc : ℝ)
    (hfc : 0 ≤ fc) (hT : w.frameDuration B ≠ 0) (L : ℕ) (hL : L < w.numSubcarriers * os)
    (hg : ∀ s ∈ w.structure_, Guarded L (w.numSubcarriers * os) s) :
    ∃ tx x, w.place data o.references = .ok tx ∧ w.modulate (ofdmForward w.numSubcarriers os dc) B os tx = .ok (x.map some) ∧
      ((∀ v < w.wordsPerFrame, ∀ j < w.numSubcarriers, toFn2 tx v j ≠ 0) →
      ∀ (mem : ℕ → ℕ → ℕ → ℝ) (streams : List (List ℂ)) (angles : List (List ℝ)) (lines : List (List ℂ)) (h : ℕ → ℕ → ℂ),
      ((o.beamformer = none ∧ streams.length = 1 ∧ angles = [[0, 0]] ∧ lines = streams) ∨
        (∃ b, o.beamformer = some b ∧ 2 ≤ streams.length ∧ b.outputs streams.length = 1 ∧
          angles = b.focus.map (·.headD []) ∧ lines = (b.probe streams).map (·.headD []) ∧
          (b.probe streams).length = b.focus.length)) →
      (∀ a (_ : a < lines.length), w.samplesPerFrame B os ≤ lines[a].length ∧ Multipath 1 L (fun _ => h a) (fun _ => x) lines[a]) →
      ∃ cube : Cube ℝ,
        (o.detector = none → o.receive (.ok ()) mem streams B os fc = .ok (cube, none)) ∧
        (∀ d cloud, o.detector = some d → d cube = .ok cloud → o.receive (.ok ()) mem streams B os fc = .ok (cube, some cloud)) ∧
        (∀ d e, o.detector = some d → d cube = .error e → o.receive (.ok ()) mem streams B os fc = .error e) ∧
        cube.na = lines.length ∧ cube.angle = angles ∧ cube.nb = w.wordsPerFrame ∧ cube.nc = w.numSubcarriers ∧ cube.fc = fc ∧
        cube.doppler = (List.range cube.nb).map (fun (i : ℕ) => (i : ℝ) / (2 * (w.frameDuration B : ℝ)) - 1 / (4 * (w.frameDuration B : ℝ))) ∧
        cube.range = (List.range cube.nc).map (fun k => light * ((k * os : ℕ) / ((B : ℝ) * os)) / 2) ∧
        ∀ a < cube.na, ∀ i < cube.nb, ∀ r, cube.data (a, i, r) =
          if i = (cube.nb - cube.nb / 2) % cube.nb then
            cube.nb * ‖ifft .backward cube.nc (fun j => response (cube.nc * os) L (h a) (subcarrierFrequency cube.nc os dc j)) r‖
          else 0) := by
  obtain ⟨tx, p1, p2, _⟩ := C55_place w hfit data o.references hd href
  obtain ⟨x, x1, x2⟩ := C73_prefix w dc B os hN hos (ofdmCorrect w.numSubcarriers os dc) 1 L hL.le hg (fun _ => tx) (fun _ _ => p2)
  refine ⟨tx, x 0, p1, (x1 0 (by omega)).1, fun hne mem streams angles lines h hcase hlines => ?_⟩
  have hb : beamform o.beamformer streams = .ok (angles, lines) ∧ lines.length = angles.length := by
    rcases hcase with ⟨h1, h2, h3, h4⟩ | ⟨b, h1, h2, h3, h4, h5, h6⟩
    · unfold beamform
      rw [h1, h3, h4, h2]
      simp
    · unfold beamform
      rw [h1, h4, h5]
      dsimp only
      rw [if_pos (by omega), h3]
      simp [h6]
  have hE : ∀ a (ha : a < lines.length), estimate w dc B os tx lines[a] = .ok (profile w.wordsPerFrame w.numSubcarriers
      (toFn2 (ofFn2 w.wordsPerFrame w.numSubcarriers fun i j =>
        response (w.numSubcarriers * os) L (h a) (subcarrierFrequency w.numSubcarriers os dc j) * toFn2 tx i j)) (toFn2 tx)) := by
    intro a ha
    unfold estimate
    rw [x2 (fun _ => h a) lines[a] (hlines a ha).1 (fun m hm hml => by
      have := (hlines a ha).2 m hm hml
      simpa using this)]
    simp
  obtain ⟨out, f1, f2⟩ := fill_ok w.wordsPerFrame w.numSubcarriers angles.length (estimate w dc B os tx) _ lines 0 mem
    (by omega) (fun a ha => by rw [Nat.zero_add]; exact hE a ha)
  have hm : ⌈o.minRange / resolution B⌉.toNat = 0 := by simp [hmin]
  have key : ∃ cube : Cube ℝ, (o.receive (.ok ()) mem streams B os fc = match o.detector with
        | none => .ok (cube, none)
        | some d => match d cube with
          | .error e => .error e
          | .ok cloud => .ok (cube, some cloud)) ∧
      cube = ⟨angles.length, w.wordsPerFrame, w.numSubcarriers, fun p => out p.1 p.2.1 p.2.2, angles,
        dopplerBins w.wordsPerFrame (w.frameDuration B : ℝ),
        (List.range w.numSubcarriers).map fun (i : ℕ) => ((0 + i : ℕ) : ℝ) * resolution B, fc⟩ := by
    unfold Sensor.receive
    rw [hlast, hw]
    dsimp only
    rw [List.flatten_singleton, p1]
    dsimp only
    rw [hb.1]
    dsimp only
    rw [if_neg hT, hm, f1]
    dsimp only
    unfold mkCube
    dsimp only
    rw [if_neg (by simp), if_neg (by simp [dopplerBins]), if_neg (by simp), if_neg (not_lt.mpr hfc)]
    exact ⟨_, rfl, rfl⟩
  obtain ⟨cube, k1, hcube⟩ := key
  refine ⟨cube, ?_, ?_, ?_, by rw [hcube, hb.2], by rw [hcube], by rw [hcube], by rw [hcube], by rw [hcube], ?_, ?_, ?_⟩
  · intro hdet
    rw [k1, hdet]
  · intro d cloud hdet hc
    rw [k1, hdet]
    dsimp only
    rw [hc]
  · intro d e hdet hc
    rw [k1, hdet]
    dsimp only
    rw [hc]
  · subst hcube
    unfold dopplerBins
    refine List.map_congr_left fun i _ => ?_
    rw [mul_one_div]
  · subst hcube
    refine List.map_congr_left fun k _ => ?_
    have hos0 : (os : ℝ) ≠ 0 := by exact_mod_cast hos.ne'
    rw [Nat.zero_add]
    unfold resolution
    push_cast
    rw [mul_div_mul_right _ _ hos0]
    ring
  · subst hcube
    intro a ha i hi r
    dsimp only at ha hi ⊢
    rw [f2, if_pos ⟨Nat.zero_le _, by omega⟩]
    rw [profile_static _ _ _ _ (fun j => response (w.numSubcarriers * os) L (h a) (subcarrierFrequency w.numSubcarriers os dc j))
      hne (fun v hv j hj => toFn2_ofFn2 _ _ _ _ _ hv hj) i hi r]
    simp only [rest_iff _ _ hi]

/-- C96, ranges: without suppression of direct current, every bin of the range axis at rest holds the number of words times the
magnitude of the echo of its delay, and all other Doppler bins are empty. -/
theorem C96_ranges_partial (o : Sensor) (w : Wave ℂ) (hw : o.waveform = some (w, false)) (data : List ℂ)
    (hlast : o.last = some [data]) (hN : 0 < w.numSubcarriers) (hfit : w.Fits) (hd : data.length = w.numDataSymbols)
    (href : o.references.length = w.referencesPerFrame) (hmin : o.minRange = 0) (hbf : o.beamformer = none)
    (hdet : o.detector = none) (B : ℚ) (os : ℕ) (hos : 0 < os) (fc : ℝ)
    (hfc : 0 ≤ fc) (hT : w.frameDuration B ≠ 0) (L : ℕ) (hL : L < w.numSubcarriers * os)
    (hg : ∀ s ∈ w.structure_, Guarded L (w.numSubcarriers * os) s) :
    ∃ tx x, w.place data o.references = .ok tx ∧ w.modulate (ofdmForward w.numSubcarriers os false) B os tx = .ok (x.map some) ∧
      ((∀ v < w.wordsPerFrame, ∀ j < w.numSubcarriers, toFn2 tx v j ≠ 0) →
      ∀ (mem : ℕ → ℕ → ℕ → ℝ) (stream : List ℂ) (h : ℕ → ℂ), w.samplesPerFrame B os ≤ stream.length →
      (∀ d, ¬os ∣ d ∨ L < d → h d = 0) → Multipath 1 L (fun _ => h) (fun _ => x) stream →
      ∃ cube : Cube ℝ, o.receive (.ok ()) mem [stream] B os fc = .ok (cube, none) ∧
        cube.na = 1 ∧ cube.nb = w.wordsPerFrame ∧ cube.nc = w.numSubcarriers ∧
        cube.range = (List.range cube.nc).map (fun k => light * ((k * os : ℕ) / ((B : ℝ) * os)) / 2) ∧
        ∀ i < cube.nb, ∀ r < cube.nc, cube.data (0, i, r) =
          if i = (cube.nb - cube.nb / 2) % cube.nb then cube.nb * ‖h (r * os)‖ else 0) := by
  obtain ⟨tx, x, h1, h2, h3⟩ := C96_cube_partial o w false hw data hlast hN hfit hd href hmin B os hos fc hfc hT L hL hg
  refine ⟨tx, x, h1, h2, fun hne mem stream h hlen hh hm => ?_⟩
  obtain ⟨cube, k1, _, _, k2, _, k3, k4, _, _, k5, k6⟩ := h3 hne mem [stream] [[0, 0]] [stream] (fun _ => h)
    (Or.inl ⟨hbf, rfl, rfl, rfl⟩) (fun a ha => by
      simp only [List.length_singleton, Nat.lt_one_iff] at ha
      subst ha
      exact ⟨hlen, hm⟩)
  refine ⟨cube, k1 hdet, k2, k3, k4, k5, fun i hi r hr => ?_⟩
  rw [k6 0 (by rw [k2]; simp) i hi r]
  rw [k4] at hr ⊢
  congr 2
  rw [ifft_congr _ _ _ _ _ (fun j _ => response_plain w.numSubcarriers os L hN hos hL h (fun d _ hd => hh d (Or.inl hd)) j),
    ifft_fft _ _ _ _ hr, norm_mul, norm_turn, mul_one]
  split
  · rfl
  · rw [hh _ (Or.inr (by omega))]

/-- C96, targets: a single target at rest, a multiple of the oversampling factor away, is where the cube is largest, at its exact
range. -/
theorem C96_target_partial (o : Sensor) (w : Wave ℂ) (hw : o.waveform = some (w, false)) (data : List ℂ)
    (hlast : o.last = some [data]) (hN : 0 < w.numSubcarriers) (hW : 0 < w.wordsPerFrame) (hfit : w.Fits)
    (hd : data.length = w.numDataSymbols)
    (href : o.references.length = w.referencesPerFrame) (hmin : o.minRange = 0) (hbf : o.beamformer = none)
    (hdet : o.detector = none) (B : ℚ) (os : ℕ) (hos : 0 < os) (fc : ℝ)
    (hfc : 0 ≤ fc) (hT : w.frameDuration B ≠ 0) (k : ℕ) (hk : k < w.numSubcarriers)
    (hg : ∀ s ∈ w.structure_, Guarded (k * os) (w.numSubcarriers * os) s) :
    ∃ tx x, w.place data o.references = .ok tx ∧ w.modulate (ofdmForward w.numSubcarriers os false) B os tx = .ok (x.map some) ∧
      ((∀ v < w.wordsPerFrame, ∀ j < w.numSubcarriers, toFn2 tx v j ≠ 0) →
      ∀ (mem : ℕ → ℕ → ℕ → ℝ) (stream : List ℂ) (a : ℂ), a ≠ 0 → w.samplesPerFrame B os ≤ stream.length →
      (∀ m, k * os ≤ m → m < stream.length → toFn stream m = a * toFn x (m - k * os)) →
      ∃ (cube : Cube ℝ) (i : ℕ), o.receive (.ok ()) mem [stream] B os fc = .ok (cube, none) ∧ (0, i, k) ∈ cube.idxs ∧
        (∀ p ∈ cube.idxs, p ≠ (0, i, k) → cube.data p < cube.data (0, i, k)) ∧
        cube.range[k]? = some (light * ((k * os : ℕ) / ((B : ℝ) * os)) / 2)) := by
  obtain ⟨tx, x, h1, h2, h3⟩ := C96_ranges_partial o w hw data hlast hN hfit hd href hmin hbf hdet B os hos fc hfc hT (k * os)
    (Nat.mul_lt_mul_of_pos_right hk hos) hg
  refine ⟨tx, x, h1, h2, fun hne mem stream a ha hlen hs => ?_⟩
  obtain ⟨cube, k1, k2, k3, k4, k5, k6⟩ := h3 hne mem stream (fun d => if d = k * os then a else 0) hlen
    (by
      rintro d (hd | hd)
      · rw [if_neg]
        rintro rfl
        exact hd (Dvd.intro_left _ rfl)
      · rw [if_neg (by omega)])
    (by
      intro m hm hml
      rw [hs m hm hml, Finset.sum_range_one]
      dsimp only
      rw [Finset.sum_eq_single (k * os)]
      · rw [if_pos rfl]
      · intro d _ hd
        rw [if_neg hd, zero_mul]
      · intro hd
        exact absurd (Finset.mem_range.2 (Nat.lt_succ_self _)) hd)
  have hi : (cube.nb - cube.nb / 2) % cube.nb < cube.nb := Nat.mod_lt _ (by omega)
  have hval : cube.data (0, (cube.nb - cube.nb / 2) % cube.nb, k) = cube.nb * ‖a‖ := by
    rw [k6 _ hi k (by omega), if_pos rfl, if_pos rfl]
  have hpos : 0 < (cube.nb : ℝ) * ‖a‖ := by
    have : 0 < ‖a‖ := norm_pos_iff.mpr ha
    have : (0 : ℝ) < cube.nb := by
      rw [k3]
      exact_mod_cast hW
    positivity
  refine ⟨cube, (cube.nb - cube.nb / 2) % cube.nb, k1, ?_, ?_, ?_⟩
  · rw [mem_idxs]
    exact ⟨by rw [k2]; exact Nat.one_pos, hi, by rw [k4]; exact hk⟩
  · rintro ⟨b, i, r⟩ hp hne'
    rw [mem_idxs] at hp
    obtain ⟨q1, q2, q3⟩ := hp
    obtain rfl : b = 0 := by omega
    rw [hval, k6 i q2 r q3]
    split
    · rename_i hi'
      have hr : r ≠ k := by
        rintro rfl
        exact hne' (by rw [hi'])
      rw [if_neg (fun h => hr (Nat.eq_of_mul_eq_mul_right hos h)), norm_zero, mul_zero]
      exact hpos
    · exact hpos
  · rw [k5, k4, List.getElem?_map, List.getElem?_range hk]
    rfl

/-- C96, refusals: an operator which has not transmitted does not receive, one without waveform does not transmit, and several
streams require a beamformer of a single output. -/
theorem C96_refused (o : Sensor) (comm : Except PyErr Unit) (mem : ℕ → ℕ → ℕ → ℝ) (streams : List (List ℂ)) (B : ℚ) (os : ℕ) (fc : ℝ)
    (data : ℕ → List ℂ) (duration : ℝ) :
    (o.last = none → o.receive comm mem streams B os fc = .error .runtime) ∧
    (o.waveform = none → o.transmit data B duration = .error .runtime) ∧
    (2 ≤ streams.length → (∀ b, o.beamformer = some b → b.outputs streams.length ≠ 1) →
      ∃ e, o.receive comm mem streams B os fc = .error e) := by
  refine ⟨fun h => ?_, fun h => ?_, fun h hb => ?_⟩
  · unfold Sensor.receive
    rw [h]
  · unfold Sensor.transmit
    rw [h]
  · have hbf : beamform o.beamformer streams = .error .runtime := by
      unfold beamform
      dsimp only
      rw [if_pos (by omega)]
      cases hbf : o.beamformer with
      | none => rfl
      | some b =>
        dsimp only
        split
        · rfl
        · rw [if_pos (hb b hbf)]
    unfold Sensor.receive
    rw [hbf]
    cases o.last with
    | none => exact ⟨_, rfl⟩
    | some frames =>
      cases o.waveform with
      | none => exact ⟨_, rfl⟩
      | some w =>
        obtain ⟨w, dc⟩ := w
        dsimp only
        cases w.place frames.flatten o.references with
        | error e => exact ⟨_, rfl⟩
        | ok tx =>
          cases comm with
          | error e => exact ⟨_, rfl⟩
          | ok u => exact ⟨_, rfl⟩

theorem mkCube_doppler (d : Arr ℝ) (angle : List (List ℝ)) (doppler range : List ℝ) (fc : ℝ) (cube : Cube ℝ)
    (h : mkCube d (some angle) (some doppler) (some range) fc = .ok cube) : cube.doppler = doppler := by
  unfold mkCube at h
  dsimp only at h
  repeat' split at h
  all_goals first
    | cases h; rfl
    | cases h

/-- The Doppler bins of every cube. -/
theorem receive_cube (o : Sensor) (comm : Except PyErr Unit) (mem : ℕ → ℕ → ℕ → ℝ) (streams : List (List ℂ)) (B : ℚ) (os : ℕ)
    (fc : ℝ) (w : Wave ℂ) (dc : Bool) (hw : o.waveform = some (w, dc)) (cube : Cube ℝ) (cloud : Option (List (Point ℝ)))
    (h : o.receive comm mem streams B os fc = .ok (cube, cloud)) :
    w.frameDuration B ≠ 0 ∧ cube.doppler = dopplerBins w.wordsPerFrame (w.frameDuration B : ℝ) := by
  unfold Sensor.receive at h
  rw [hw] at h
  dsimp only at h
  repeat' split at h
  all_goals first
    | (cases h; done)
    | skip
  all_goals
    simp only [Except.ok.injEq, Prod.mk.injEq] at h
    obtain ⟨rfl, _⟩ := h
    exact ⟨‹¬_›, mkCube_doppler _ _ _ _ _ _ ‹mkCube _ _ _ _ _ = Except.ok _›⟩

/-- C96, Doppler bins: no bin of any cube stands for rest, and the bins lie half a bin off the multiples of the resolution. -/
theorem C96_doppler_bins (o : Sensor) (comm : Except PyErr Unit) (mem : ℕ → ℕ → ℕ → ℝ) (streams : List (List ℂ)) (B : ℚ) (os : ℕ)
    (fc : ℝ) (w : Wave ℂ) (dc : Bool) (hw : o.waveform = some (w, dc)) (cube : Cube ℝ) (cloud : Option (List (Point ℝ)))
    (h : o.receive comm mem streams B os fc = .ok (cube, cloud)) :
    cube.doppler.length = w.wordsPerFrame ∧
      (∀ i, i < w.wordsPerFrame → cube.doppler[i]? = some (((i : ℝ) - 1 / 2) / (2 * (w.frameDuration B : ℝ)))) ∧
      (0 : ℝ) ∉ cube.doppler := by
  obtain ⟨hT, hd⟩ := receive_cube o comm mem streams B os fc w dc hw cube cloud h
  have hT' : ((w.frameDuration B : ℚ) : ℝ) ≠ 0 := by exact_mod_cast hT
  have e : ∀ i : ℕ, (i : ℝ) * (1 / (2 * (w.frameDuration B : ℝ))) - 1 / (4 * (w.frameDuration B : ℝ)) =
      ((i : ℝ) - 1 / 2) / (2 * (w.frameDuration B : ℝ)) := by
    intro i
    field_simp
    ring
  rw [hd]
  refine ⟨by simp [dopplerBins], fun i hi => ?_, fun h0 => ?_⟩
  · unfold dopplerBins
    rw [List.getElem?_map, List.getElem?_range hi, Option.map_some, e]
  · unfold dopplerBins at h0
    obtain ⟨i, _, hi⟩ := List.mem_map.1 h0
    rw [e, div_eq_zero_iff] at hi
    rcases hi with hi | hi
    · have h2 : (2 * i : ℝ) = 1 := by linarith
      have : (2 * i : ℕ) = 1 := by exact_mod_cast h2
      omega
    · exact hT' (by linarith)

/-- C96, Doppler: whatever is at rest is shown at a Doppler shift of at least half a bin; with two words or more, as approaching. -/
theorem C96_doppler_fails (o : Sensor) (w : Wave ℂ) (dc : Bool) (hw : o.waveform = some (w, dc)) (data : List ℂ)
    (hlast : o.last = some [data]) (hN : 0 < w.numSubcarriers) (hW : 2 ≤ w.wordsPerFrame) (hfit : w.Fits)
    (hd : data.length = w.numDataSymbols)
    (href : o.references.length = w.referencesPerFrame) (hmin : o.minRange = 0) (hbf : o.beamformer = none)
    (hdet : o.detector = none) (B : ℚ) (hB : 0 < B) (os : ℕ) (hos : 0 < os) (fc : ℝ)
    (hfc : 0 ≤ fc) (hT : w.frameDuration B ≠ 0) (L : ℕ) (hL : L < w.numSubcarriers * os)
    (hg : ∀ s ∈ w.structure_, Guarded L (w.numSubcarriers * os) s) :
    ∃ tx x, w.place data o.references = .ok tx ∧ w.modulate (ofdmForward w.numSubcarriers os dc) B os tx = .ok (x.map some) ∧
      ((∀ v < w.wordsPerFrame, ∀ j < w.numSubcarriers, toFn2 tx v j ≠ 0) →
      ∀ (mem : ℕ → ℕ → ℕ → ℝ) (stream : List ℂ) (h : ℕ → ℂ), w.samplesPerFrame B os ≤ stream.length →
      Multipath 1 L (fun _ => h) (fun _ => x) stream →
      ∃ cube : Cube ℝ, o.receive (.ok ()) mem [stream] B os fc = .ok (cube, none) ∧
        ∀ p ∈ cube.idxs, cube.data p ≠ 0 → 1 / (4 * (w.frameDuration B : ℝ)) ≤ cube.doppler.getD p.2.1 0 ∧
          0 < cube.doppler.getD p.2.1 0) := by
  obtain ⟨tx, x, h1, h2, h3⟩ := C96_cube_partial o w dc hw data hlast hN hfit hd href hmin B os hos fc hfc hT L hL hg
  refine ⟨tx, x, h1, h2, fun hne mem stream h hlen hm => ?_⟩
  obtain ⟨cube, k1, _, _, k2, _, k3, k4, _, _, _, k6⟩ := h3 hne mem [stream] [[0, 0]] [stream] (fun _ => h)
    (Or.inl ⟨hbf, rfl, rfl, rfl⟩) (fun a ha => by
      simp only [List.length_singleton, Nat.lt_one_iff] at ha
      subst ha
      exact ⟨hlen, hm⟩)
  have hT' : 0 < ((w.frameDuration B : ℚ) : ℝ) := by
    have : 0 ≤ w.frameDuration B := by
      unfold Wave.frameDuration
      positivity
    exact_mod_cast lt_of_le_of_ne this hT.symm
  refine ⟨cube, k1 hdet, ?_⟩
  rintro ⟨a, i, r⟩ hp hne'
  rw [mem_idxs] at hp
  obtain ⟨q1, q2, q3⟩ := hp
  have hi : i = (cube.nb - cube.nb / 2) % cube.nb := by
    by_contra hi
    rw [k6 a q1 i q2 r, if_neg hi] at hne'
    exact hne' rfl
  have hi1 : 1 ≤ i := by
    rw [hi, k3, Nat.mod_eq_of_lt (by omega)]
    omega
  have hb := (C96_doppler_bins o (.ok ()) mem [stream] B os fc w dc hw cube none (k1 hdet)).2.1 i (by omega)
  dsimp only
  rw [List.getD_eq_getElem?_getD, hb, Option.getD_some]
  have hi1' : (1 : ℝ) ≤ i := by exact_mod_cast hi1
  constructor
  · rw [div_le_div_iff₀ (by positivity) (by positivity)]
    nlinarith
  · apply div_pos <;> linarith

/-- C96, minimum range: with any positive minimum range nothing is received at all. -/
theorem C96_min_range_fails (o : Sensor) (comm : Except PyErr Unit) (mem : ℕ → ℕ → ℕ → ℝ) (streams : List (List ℂ))
    (hs : streams ≠ []) (hbf : o.beamformer = none) (hmin : 0 < o.minRange) (B : ℚ) (hB : 0 < B) (os : ℕ) (fc : ℝ) (w : Wave ℂ)
    (dc : Bool) (hw : o.waveform = some (w, dc)) (hN : 2 ≤ w.numSubcarriers) :
    ∃ e, o.receive comm mem streams B os fc = .error e := by
  have hm : 1 ≤ ⌈o.minRange / resolution B⌉.toNat := by
    have : 0 < o.minRange / resolution B := by
      have := light_pos
      have : (0 : ℝ) < B := by exact_mod_cast hB
      unfold resolution
      positivity
    have := Int.ceil_pos.mpr this
    omega
  unfold Sensor.receive
  rw [hw]
  cases o.last with
  | none => exact ⟨_, rfl⟩
  | some frames =>
    dsimp only
    cases w.place frames.flatten o.references with
    | error e => exact ⟨_, rfl⟩
    | ok tx =>
      cases comm with
      | error e => exact ⟨_, rfl⟩
      | ok u =>
        dsimp only
        cases hb : beamform o.beamformer streams with
        | error e => exact ⟨_, rfl⟩
        | ok p =>
          obtain ⟨angles, lines⟩ := p
          dsimp only
          split
          · exact ⟨_, rfl⟩
          · have hl : lines = streams := by
              unfold beamform at hb
              rw [hbf] at hb
              dsimp only at hb
              split at hb
              · cases hb
              · cases hb
                rfl
            subst hl
            cases lines with
            | nil => exact absurd rfl hs
            | cons line lines =>
              rw [fill]
              cases estimate w dc B os tx line with
              | error e => exact ⟨_, rfl⟩
              | ok e =>
                dsimp only
                split
                · rename_i heq
                  split at heq
                  · exact ⟨_, rfl⟩
                  · exact ⟨_, rfl⟩
                · rename_i heq
                  split at heq
                  · cases heq
                  · rw [if_neg (by omega)] at heq
                    cases heq

/-- C96, frames: after transmitting for the duration of two frames or more, nothing is received at all. -/
theorem C96_frames_fails (o o' : Sensor) (w : Wave ℂ) (dc : Bool) (hw : o.waveform = some (w, dc)) (hD : 0 < w.numDataSymbols)
    (data : ℕ → List ℂ) (hd : ∀ n, (data n).length = w.numDataSymbols) (B : ℚ) (hB : 0 < B) (duration : ℝ)
    (hlong : 2 * (w.frameDuration B : ℝ) ≤ duration) (ht : o.transmit data B duration = .ok o') (comm : Except PyErr Unit)
    (mem : ℕ → ℕ → ℕ → ℝ) (streams : List (List ℂ)) (os : ℕ) (fc : ℝ) :
    o'.receive comm mem streams B os fc = .error .value := by
  unfold Sensor.transmit at ht
  rw [hw] at ht
  dsimp only at ht
  split at ht
  · cases ht
  · rename_i hT
    cases ht
    have hT' : 0 < ((w.frameDuration B : ℚ) : ℝ) := by
      have : 0 ≤ w.frameDuration B := by
        unfold Wave.frameDuration
        positivity
      exact_mod_cast lt_of_le_of_ne this (Ne.symm hT)
    have hn : 2 ≤ numFrames duration (w.frameDuration B : ℝ) := by
      unfold numFrames
      rw [if_neg (by linarith)]
      have h2 : (2 : ℝ) ≤ duration / (w.frameDuration B : ℝ) := by
        rw [le_div_iff₀ hT']
        exact hlong
      have : (2 : ℤ) ≤ truncInt (duration / (w.frameDuration B : ℝ)) := by
        unfold truncInt
        rw [if_pos (by linarith)]
        exact Int.le_floor.mpr (by exact_mod_cast h2)
      omega
    have hlen : ∀ n, (((List.range n).map data).flatten).length = n * w.numDataSymbols := by
      intro n
      rw [List.length_flatten, List.map_map]
      rw [List.map_congr_left (f := List.length ∘ data) (g := fun _ => w.numDataSymbols) (fun i _ => hd i)]
      simp
    unfold Sensor.receive
    dsimp only
    rw [Wave.place, if_pos]
    rw [hlen]
    nlinarith

theorem frequency_suppressed (M os : ℕ) (hM : 0 < M) (hos : 2 ≤ os) (j : ℕ) (hj : j < 2 * M) :
    subcarrierFrequency (2 * M) os true j = if j < M then (j : ℤ) - M else (j : ℤ) - M + 1 := by
  unfold subcarrierFrequency
  have h1 : os * (2 * M) = 2 * (os * M) := by ring
  have h2 : 2 * M * os = 2 * (os * M) := by ring
  have h3 : 2 * M ≤ os * M := Nat.mul_le_mul_right _ hos
  rw [h1, h2]
  simp only [true_and]
  generalize os * M = P at *
  rw [show 2 * P / 2 = P by omega, show 2 * M / 2 = M by omega]
  by_cases hjM : j < M
  · rw [if_pos hjM, if_neg (by omega)]
    omega
  · rw [if_neg hjM, if_pos (by omega), if_neg (by omega)]
    omega

/-- C96, ranges: with direct current suppressed, as by default, a target at rest at half the maximum range leaves no trace in
the bins of its range, but in others. -/
theorem C96_dc_fails (o : Sensor) (w : Wave ℂ) (hw : o.waveform = some (w, true)) (data : List ℂ)
    (hlast : o.last = some [data]) (M : ℕ) (hM : 0 < M) (hN : w.numSubcarriers = 2 * M) (hW : 0 < w.wordsPerFrame) (hfit : w.Fits)
    (hd : data.length = w.numDataSymbols)
    (href : o.references.length = w.referencesPerFrame) (hmin : o.minRange = 0) (hbf : o.beamformer = none)
    (hdet : o.detector = none) (B : ℚ) (os : ℕ) (hos : 2 ≤ os) (fc : ℝ)
    (hfc : 0 ≤ fc) (hT : w.frameDuration B ≠ 0)
    (hg : ∀ s ∈ w.structure_, Guarded (M * os) (w.numSubcarriers * os) s) :
    ∃ tx x, w.place data o.references = .ok tx ∧ w.modulate (ofdmForward w.numSubcarriers os true) B os tx = .ok (x.map some) ∧
      ((∀ v < w.wordsPerFrame, ∀ j < w.numSubcarriers, toFn2 tx v j ≠ 0) →
      ∀ (mem : ℕ → ℕ → ℕ → ℝ) (stream : List ℂ) (a : ℂ), a ≠ 0 → w.samplesPerFrame B os ≤ stream.length →
      (∀ m, M * os ≤ m → m < stream.length → toFn stream m = a * toFn x (m - M * os)) →
      ∃ cube : Cube ℝ, o.receive (.ok ()) mem [stream] B os fc = .ok (cube, none) ∧
        cube.range[M]? = some (o.maxRange B / 2) ∧ cube.range[M]? = some (light * ((M * os : ℕ) / ((B : ℝ) * os)) / 2) ∧
        (∀ i < cube.nb, cube.data (0, i, M) = 0) ∧ ∃ p ∈ cube.idxs, 0 < cube.data p) := by
  have hos0 : 0 < os := by omega
  have hMC : (M : ℂ) ≠ 0 := by exact_mod_cast hM.ne'
  have hosC : (os : ℂ) ≠ 0 := by exact_mod_cast hos0.ne'
  obtain ⟨tx, x, h1, h2, h3⟩ := C96_cube_partial o w true hw data hlast (by omega) hfit hd href hmin B os hos0 fc hfc hT (M * os)
    (by rw [hN]; exact Nat.mul_lt_mul_of_pos_right (by omega) hos0) hg
  refine ⟨tx, x, h1, h2, fun hne mem stream a ha hlen hs => ?_⟩
  obtain ⟨cube, k1, _, _, k2, _, k3, k4, _, _, k5, k6⟩ := h3 hne mem [stream] [[0, 0]] [stream]
    (fun _ d => if d = M * os then a else 0)
    (Or.inl ⟨hbf, rfl, rfl, rfl⟩) (fun b hb => by
      simp only [List.length_singleton, Nat.lt_one_iff] at hb
      subst hb
      refine ⟨hlen, fun m hm hml => ?_⟩
      rw [List.getElem_cons_zero] at hml ⊢
      rw [hs m hm hml, Finset.sum_range_one]
      dsimp only
      rw [Finset.sum_eq_single (M * os)]
      · rw [if_pos rfl]
      · intro d _ hd
        rw [if_neg hd, zero_mul]
      · intro hd
        exact absurd (Finset.mem_range.2 (Nat.lt_succ_self _)) hd)
  have hresp : ∀ f : ℤ, response (cube.nc * os) (M * os) (fun d => if d = M * os then a else 0) f = a * exp (-(Real.pi * I * f)) := by
    intro f
    unfold response
    dsimp only
    rw [Finset.sum_eq_single (M * os)]
    · rw [if_pos rfl, k4, hN]
      congr 3
      push_cast
      field_simp
    · intro d _ hd
      rw [if_neg hd, zero_mul]
    · intro hd
      exact absurd (Finset.mem_range.2 (Nat.lt_succ_self _)) hd
  have hflip : exp (-(Real.pi * I * ((-M + 1 : ℤ) : ℂ))) = - exp (-(Real.pi * I * ((-M : ℤ) : ℂ))) := by
    rw [show (-(Real.pi * I * ((-M + 1 : ℤ) : ℂ)) : ℂ) = -(Real.pi * I * ((-M : ℤ) : ℂ)) - Real.pi * I by push_cast; ring,
      Complex.exp_sub, Complex.exp_pi_mul_I, div_neg, div_one]
  have hzero : ifft .backward cube.nc (fun j => response (cube.nc * os) (M * os) (fun d => if d = M * os then a else 0)
      (subcarrierFrequency cube.nc os true j)) M = 0 := by
    have hterm : ∀ j < 2 * M, a * exp (-(Real.pi * I * ((subcarrierFrequency (2 * M) os true j : ℤ) : ℂ))) *
        exp (2 * Real.pi * I * M * j / ((2 * M : ℕ) : ℂ)) =
        if j < M then a * exp (-(Real.pi * I * ((-M : ℤ) : ℂ))) else -(a * exp (-(Real.pi * I * ((-M : ℤ) : ℂ)))) := by
      intro j hj
      rw [frequency_suppressed M os hM hos j hj, mul_assoc, ← Complex.exp_add]
      split
      · congr 2
        push_cast
        field_simp
        ring
      · rw [← mul_neg a, ← hflip]
        congr 2
        push_cast
        field_simp
        ring
    unfold ifft
    simp only [hresp]
    rw [k4, hN, Finset.sum_congr rfl fun j hj => hterm j (Finset.mem_range.1 hj), two_mul, Finset.sum_range_add,
      Finset.sum_congr rfl fun j hj => if_pos (Finset.mem_range.1 hj),
      Finset.sum_congr rfl fun j hj => if_neg (show ¬M + j < M by omega)]
    simp
  have hi : (cube.nb - cube.nb / 2) % cube.nb < cube.nb := Nat.mod_lt _ (by omega)
  refine ⟨cube, k1 hdet, ?_, ?_, fun i hi => ?_, ?_⟩
  · rw [k5, k4, List.getElem?_map, List.getElem?_range (by omega), Option.map_some]
    unfold Sensor.maxRange
    rw [hw]
    dsimp only
    rw [hN]
    have hosR : (os : ℝ) ≠ 0 := by exact_mod_cast hos0.ne'
    push_cast
    rw [mul_div_mul_right _ _ hosR]
    congr 1
    ring
  · rw [k5, k4, List.getElem?_map, List.getElem?_range (by omega), Option.map_some]
  · rw [k6 0 (by rw [k2]; simp) i hi M, hzero]
    simp
  · by_contra hno
    push Not at hno
    have hall : ∀ r < cube.nc, ifft .backward cube.nc (fun j => response (cube.nc * os) (M * os) (fun d => if d = M * os then a else 0)
        (subcarrierFrequency cube.nc os true j)) r = 0 := by
      intro r hr
      have := hno (0, (cube.nb - cube.nb / 2) % cube.nb, r) (by
        rw [mem_idxs]
        exact ⟨by rw [k2]; exact Nat.one_pos, hi, hr⟩)
      rw [k6 0 (by rw [k2]; simp) _ hi r, if_pos rfl] at this
      have hnb : (0 : ℝ) < cube.nb := by
        rw [k3]
        exact_mod_cast hW
      by_contra hne0
      have := mul_pos hnb (norm_pos_iff.mpr hne0)
      linarith
    have hback := fft_ifft .backward cube.nc (fun j => response (cube.nc * os) (M * os) (fun d => if d = M * os then a else 0)
        (subcarrierFrequency cube.nc os true j)) 0 (by omega)
    rw [fft_congr _ _ _ (fun _ => 0) _ hall, fft_const _ _ _ (by omega), if_pos rfl, mul_zero, hresp] at hback
    rcases mul_eq_zero.mp hback.symm with h | h
    · exact ha h
    · exact Complex.exp_ne_zero _ h

open Classical in
/-- C96, occupied grids: whatever elements of the grid are empty, a target at rest is nowhere larger than in its own bin, which
holds the magnitude of the echo times the number of occupied elements per subcarrier. -/
theorem C96_occupied_partial (o : Sensor) (w : Wave ℂ) (hw : o.waveform = some (w, false)) (data : List ℂ)
    (hlast : o.last = some [data]) (hN : 0 < w.numSubcarriers) (hW : 0 < w.wordsPerFrame) (hfit : w.Fits)
    (hd : data.length = w.numDataSymbols)
    (href : o.references.length = w.referencesPerFrame) (hmin : o.minRange = 0) (hbf : o.beamformer = none)
    (hdet : o.detector = none) (B : ℚ) (os : ℕ) (hos : 0 < os) (fc : ℝ)
    (hfc : 0 ≤ fc) (hT : w.frameDuration B ≠ 0) (k : ℕ) (hk : k < w.numSubcarriers)
    (hg : ∀ s ∈ w.structure_, Guarded (k * os) (w.numSubcarriers * os) s) :
    ∃ tx x, w.place data o.references = .ok tx ∧ w.modulate (ofdmForward w.numSubcarriers os false) B os tx = .ok (x.map some) ∧
      ∀ (mem : ℕ → ℕ → ℕ → ℝ) (stream : List ℂ) (a : ℂ), w.samplesPerFrame B os ≤ stream.length →
      (∀ m, k * os ≤ m → m < stream.length → toFn stream m = a * toFn x (m - k * os)) →
      ∃ (cube : Cube ℝ) (i : ℕ), o.receive (.ok ()) mem [stream] B os fc = .ok (cube, none) ∧ (0, i, k) ∈ cube.idxs ∧
        (∀ p ∈ cube.idxs, cube.data p ≤ cube.data (0, i, k)) ∧
        cube.data (0, i, k) = ‖a‖ * (∑ v ∈ Finset.range w.wordsPerFrame,
          ((Finset.range w.numSubcarriers).filter fun j => toFn2 tx v j ≠ 0).card : ℕ) / w.numSubcarriers ∧
        cube.range[k]? = some (light * ((k * os : ℕ) / ((B : ℝ) * os)) / 2) := by
  have hNC : (w.numSubcarriers : ℂ) ≠ 0 := by exact_mod_cast hN.ne'
  have hosC : (os : ℂ) ≠ 0 := by exact_mod_cast hos.ne'
  have hLlt : k * os < w.numSubcarriers * os := Nat.mul_lt_mul_of_pos_right hk hos
  obtain ⟨tx, p1, p2, _⟩ := C55_place w hfit data o.references hd href
  obtain ⟨x, x1, x2⟩ := C73_prefix w false B os hN hos (ofdmCorrect w.numSubcarriers os false) 1 (k * os) hLlt.le hg (fun _ => tx)
    (fun _ _ => p2)
  refine ⟨tx, x 0, p1, (x1 0 (by omega)).1, fun mem stream a hlen hs => ?_⟩
  have hresp : ∀ j : ℕ, response (w.numSubcarriers * os) (k * os) (fun d => if d = k * os then a else 0)
      (subcarrierFrequency w.numSubcarriers os false j) =
      a * exp (2 * Real.pi * I * (w.numSubcarriers / 2 : ℕ) * k / w.numSubcarriers) *
        exp (-(2 * Real.pi * I * k * j / w.numSubcarriers)) := by
    intro j
    rw [frequency_plain _ _ hos]
    unfold response
    dsimp only
    rw [Finset.sum_eq_single (k * os)]
    · rw [if_pos rfl, mul_assoc a, ← Complex.exp_add]
      generalize w.numSubcarriers / 2 = H
      congr 2
      push_cast
      field_simp
      ring
    · intro d _ hd
      rw [if_neg hd, zero_mul]
    · intro hd
      exact absurd (Finset.mem_range.2 (Nat.lt_succ_self _)) hd
  have hdem : estimate w false B os tx stream = .ok (profile w.wordsPerFrame w.numSubcarriers
      (toFn2 (ofFn2 w.wordsPerFrame w.numSubcarriers fun i j =>
        response (w.numSubcarriers * os) (k * os) (fun d => if d = k * os then a else 0)
          (subcarrierFrequency w.numSubcarriers os false j) * toFn2 tx i j)) (toFn2 tx)) := by
    unfold estimate
    rw [x2 (fun _ d => if d = k * os then a else 0) stream hlen (fun m hm hml => by
      rw [hs m hm hml, Finset.sum_range_one]
      dsimp only
      rw [Finset.sum_eq_single (k * os)]
      · rw [if_pos rfl]
      · intro d _ hd
        rw [if_neg hd, zero_mul]
      · intro hd
        exact absurd (Finset.mem_range.2 (Nat.lt_succ_self _)) hd)]
    simp
  have hprof : ∀ i r, profile w.wordsPerFrame w.numSubcarriers
      (toFn2 (ofFn2 w.wordsPerFrame w.numSubcarriers fun i j =>
        response (w.numSubcarriers * os) (k * os) (fun d => if d = k * os then a else 0)
          (subcarrierFrequency w.numSubcarriers os false j) * toFn2 tx i j)) (toFn2 tx) i r =
      ‖a‖ / w.numSubcarriers * ‖∑ v ∈ Finset.range w.wordsPerFrame, ∑ j ∈ Finset.range w.numSubcarriers,
        if toFn2 tx v j ≠ 0 then exp (-(2 * Real.pi * I * k * j / w.numSubcarriers)) *
          exp (2 * Real.pi * I * r * j / w.numSubcarriers) *
          exp (-(2 * Real.pi * I * ((i + w.wordsPerFrame / 2) % w.wordsPerFrame : ℕ) * v / w.wordsPerFrame)) else 0‖ := by
    intro i r
    have e : fft .backward w.wordsPerFrame (fun v => ifft .backward w.numSubcarriers (fun j => normalized
        (toFn2 (ofFn2 w.wordsPerFrame w.numSubcarriers fun i j =>
        response (w.numSubcarriers * os) (k * os) (fun d => if d = k * os then a else 0)
          (subcarrierFrequency w.numSubcarriers os false j) * toFn2 tx i j) v j) (toFn2 tx v j)) r)
        ((i + w.wordsPerFrame / 2) % w.wordsPerFrame) =
        a * exp (2 * Real.pi * I * (w.numSubcarriers / 2 : ℕ) * k / w.numSubcarriers) / w.numSubcarriers *
        ∑ v ∈ Finset.range w.wordsPerFrame, ∑ j ∈ Finset.range w.numSubcarriers,
        if toFn2 tx v j ≠ 0 then exp (-(2 * Real.pi * I * k * j / w.numSubcarriers)) *
          exp (2 * Real.pi * I * r * j / w.numSubcarriers) *
          exp (-(2 * Real.pi * I * ((i + w.wordsPerFrame / 2) % w.wordsPerFrame : ℕ) * v / w.wordsPerFrame)) else 0 := by
      unfold fft ifft
      rw [show Norm.fwd w.wordsPerFrame .backward = 1 from rfl,
        show Norm.bwd w.numSubcarriers .backward = 1 / (w.numSubcarriers : ℂ) from rfl, one_mul, Finset.mul_sum]
      refine Finset.sum_congr rfl fun v hv => ?_
      dsimp only
      rw [Finset.mul_sum, Finset.mul_sum, Finset.sum_mul]
      refine Finset.sum_congr rfl fun j hj => ?_
      rw [toFn2_ofFn2 _ _ _ _ _ (Finset.mem_range.1 hv) (Finset.mem_range.1 hj)]
      unfold normalized
      by_cases h0 : toFn2 tx v j = 0
      · rw [if_pos h0, if_neg (not_not.mpr h0)]
        simp
      · rw [if_neg h0, if_pos h0, mul_div_cancel_right₀ _ h0, hresp]
        ring
    unfold profile
    rw [e, norm_mul, norm_div, norm_mul, norm_turn, mul_one, Complex.norm_natCast]
  have hnorm : ∀ i r v j : ℕ, ‖exp (-(2 * Real.pi * I * k * j / w.numSubcarriers)) *
      exp (2 * Real.pi * I * r * j / w.numSubcarriers) *
      exp (-(2 * Real.pi * I * ((i + w.wordsPerFrame / 2) % w.wordsPerFrame : ℕ) * v / w.wordsPerFrame))‖ = 1 := by
    intro i r v j
    rw [norm_mul, norm_mul, Complex.exp_neg, Complex.exp_neg, norm_inv, norm_inv, norm_turn, norm_turn, norm_turn]
    norm_num
  have hcount : ∀ v, ∑ j ∈ Finset.range w.numSubcarriers, (if toFn2 tx v j ≠ 0 then (1 : ℝ) else 0) =
      (((Finset.range w.numSubcarriers).filter fun j => toFn2 tx v j ≠ 0).card : ℕ) := by
    intro v
    rw [Finset.sum_ite, Finset.sum_const_zero, add_zero, Finset.sum_const, nsmul_eq_mul, mul_one]
  have hle : ∀ i r, profile w.wordsPerFrame w.numSubcarriers
      (toFn2 (ofFn2 w.wordsPerFrame w.numSubcarriers fun i j =>
        response (w.numSubcarriers * os) (k * os) (fun d => if d = k * os then a else 0)
          (subcarrierFrequency w.numSubcarriers os false j) * toFn2 tx i j)) (toFn2 tx) i r ≤
      ‖a‖ * (∑ v ∈ Finset.range w.wordsPerFrame,
          ((Finset.range w.numSubcarriers).filter fun j => toFn2 tx v j ≠ 0).card : ℕ) / w.numSubcarriers := by
    intro i r
    rw [hprof, mul_div_right_comm]
    refine mul_le_mul_of_nonneg_left ?_ (by positivity)
    refine (norm_sum_le _ _).trans ?_
    rw [Nat.cast_sum]
    refine Finset.sum_le_sum fun v _ => ?_
    rw [← hcount]
    refine (norm_sum_le _ _).trans (Finset.sum_le_sum fun j _ => ?_)
    split
    · rw [hnorm]
    · rw [norm_zero]
  have hi : (w.wordsPerFrame - w.wordsPerFrame / 2) % w.wordsPerFrame < w.wordsPerFrame := Nat.mod_lt _ hW
  have heq : profile w.wordsPerFrame w.numSubcarriers
      (toFn2 (ofFn2 w.wordsPerFrame w.numSubcarriers fun i j =>
        response (w.numSubcarriers * os) (k * os) (fun d => if d = k * os then a else 0)
          (subcarrierFrequency w.numSubcarriers os false j) * toFn2 tx i j)) (toFn2 tx)
          ((w.wordsPerFrame - w.wordsPerFrame / 2) % w.wordsPerFrame) k =
      ‖a‖ * (∑ v ∈ Finset.range w.wordsPerFrame,
          ((Finset.range w.numSubcarriers).filter fun j => toFn2 tx v j ≠ 0).card : ℕ) / w.numSubcarriers := by
    rw [hprof, mul_div_right_comm, (rest_iff _ _ hi).mpr rfl]
    congr 1
    rw [Finset.sum_congr rfl fun v _ => Finset.sum_congr rfl fun j _ => by
      rw [← Complex.exp_add, neg_add_cancel, Complex.exp_zero, Nat.cast_zero, mul_zero, zero_mul, zero_div, neg_zero,
        Complex.exp_zero, mul_one]]
    rw [Nat.cast_sum]
    have : ∀ v, ∑ j ∈ Finset.range w.numSubcarriers, (if toFn2 tx v j ≠ 0 then (1 : ℂ) else 0) =
        (((((Finset.range w.numSubcarriers).filter fun j => toFn2 tx v j ≠ 0).card : ℕ) : ℝ) : ℂ) := by
      intro v
      rw [← hcount, Complex.ofReal_sum]
      refine Finset.sum_congr rfl fun j _ => ?_
      split
      · rw [Complex.ofReal_one]
      · rw [Complex.ofReal_zero]
    rw [Finset.sum_congr rfl fun v _ => this v, ← Complex.ofReal_sum, Complex.norm_real, Real.norm_of_nonneg]
    exact Finset.sum_nonneg fun v _ => Nat.cast_nonneg _
  obtain ⟨out, f1, f2⟩ := fill_ok w.wordsPerFrame w.numSubcarriers 1 (estimate w false B os tx) (fun _ => profile w.wordsPerFrame w.numSubcarriers
      (toFn2 (ofFn2 w.wordsPerFrame w.numSubcarriers fun i j =>
        response (w.numSubcarriers * os) (k * os) (fun d => if d = k * os then a else 0)
          (subcarrierFrequency w.numSubcarriers os false j) * toFn2 tx i j)) (toFn2 tx)) [stream] 0 mem
    (by simp) (fun b hb => by
      simp only [List.length_singleton, Nat.lt_one_iff] at hb
      subst hb
      exact hdem)
  have hm : ⌈o.minRange / resolution B⌉.toNat = 0 := by simp [hmin]
  have key : o.receive (.ok ()) mem [stream] B os fc =
      .ok (⟨1, w.wordsPerFrame, w.numSubcarriers, fun p => out p.1 p.2.1 p.2.2, [[0, 0]],
        dopplerBins w.wordsPerFrame (w.frameDuration B : ℝ),
        (List.range w.numSubcarriers).map fun (i : ℕ) => ((0 + i : ℕ) : ℝ) * resolution B, fc⟩, none) := by
    unfold Sensor.receive
    rw [hlast, hw, hdet, hbf]
    dsimp only
    rw [List.flatten_singleton, p1]
    dsimp only
    rw [show beamform none [stream] = .ok ([[0, 0]], [stream]) by simp [beamform]]
    dsimp only
    rw [if_neg hT, hm, List.length_singleton, f1]
    dsimp only
    unfold mkCube
    dsimp only
    rw [if_neg (by simp), if_neg (by simp [dopplerBins]), if_neg (by simp), if_neg (not_lt.mpr hfc), Nat.sub_zero]
  refine ⟨_, (w.wordsPerFrame - w.wordsPerFrame / 2) % w.wordsPerFrame, key, ?_, ?_, ?_, ?_⟩
  · rw [mem_idxs]
    exact ⟨Nat.one_pos, hi, hk⟩
  · rintro ⟨b, i, r⟩ hp
    rw [mem_idxs] at hp
    obtain ⟨q1, q2, q3⟩ := hp
    have hb0 : b = 0 := by
      dsimp only at q1
      omega
    subst hb0
    dsimp only
    rw [f2, f2, if_pos (by simp), if_pos (by simp), heq]
    exact hle i r
  · dsimp only
    rw [f2, if_pos (by simp), heq]
  · dsimp only
    rw [List.getElem?_map, List.getElem?_range hk, Option.map_some, Nat.zero_add]
    have hosR : (os : ℝ) ≠ 0 := by exact_mod_cast hos.ne'
    unfold resolution
    push_cast
    rw [mul_div_mul_right _ _ hosR]
    congr 1
    ring

/-- C96, cubes: if a beamformer focusing several points is configured and a single stream is received, all angles but the
first show what the allocated memory happened to hold. -/
theorem C96_memory_fails (o : Sensor) (w : Wave ℂ) (dc : Bool) (hw : o.waveform = some (w, dc)) (data : List ℂ)
    (hlast : o.last = some [data]) (hN : 0 < w.numSubcarriers) (hfit : w.Fits) (hd : data.length = w.numDataSymbols)
    (href : o.references.length = w.referencesPerFrame) (hmin : o.minRange = 0) (b : Beamformer) (hbf : o.beamformer = some b)
    (hfoc : 2 ≤ b.focus.length) (hdet : o.detector = none) (B : ℚ) (os : ℕ) (hos : 0 < os) (fc : ℝ)
    (hfc : 0 ≤ fc) (hT : w.frameDuration B ≠ 0) (L : ℕ) (hL : L < w.numSubcarriers * os)
    (hg : ∀ s ∈ w.structure_, Guarded L (w.numSubcarriers * os) s) :
    ∃ tx x, w.place data o.references = .ok tx ∧ w.modulate (ofdmForward w.numSubcarriers os dc) B os tx = .ok (x.map some) ∧
      ∀ (mem : ℕ → ℕ → ℕ → ℝ) (stream : List ℂ) (h : ℕ → ℂ), w.samplesPerFrame B os ≤ stream.length →
      Multipath 1 L (fun _ => h) (fun _ => x) stream →
      ∃ cube : Cube ℝ, o.receive (.ok ()) mem [stream] B os fc = .ok (cube, none) ∧ cube.na = b.focus.length ∧
        ∀ a, 1 ≤ a → a < cube.na → ∀ i r, cube.data (a, i, r) = mem a i r := by
  obtain ⟨tx, p1, p2, _⟩ := C55_place w hfit data o.references hd href
  obtain ⟨x, x1, x2⟩ := C73_prefix w dc B os hN hos (ofdmCorrect w.numSubcarriers os dc) 1 L hL.le hg (fun _ => tx) (fun _ _ => p2)
  refine ⟨tx, x 0, p1, (x1 0 (by omega)).1, fun mem stream h hlen hs => ?_⟩
  have hE : ∃ e, estimate w dc B os tx stream = .ok e := by
    unfold estimate
    rw [x2 (fun _ => h) stream hlen (fun m hm hml => by
      have := hs m hm hml
      simpa using this)]
    exact ⟨_, rfl⟩
  obtain ⟨e, hE⟩ := hE
  obtain ⟨out, f1, f2⟩ := fill_ok w.wordsPerFrame w.numSubcarriers b.focus.length (estimate w dc B os tx) (fun _ => e) [stream] 0 mem
    (by simp only [List.length_singleton]; omega) (fun a ha => by
      simp only [List.length_singleton, Nat.lt_one_iff] at ha
      subst ha
      exact hE)
  have hm : ⌈o.minRange / resolution B⌉.toNat = 0 := by simp [hmin]
  have key : o.receive (.ok ()) mem [stream] B os fc =
      .ok (⟨b.focus.length, w.wordsPerFrame, w.numSubcarriers, fun p => out p.1 p.2.1 p.2.2, b.focus.map (·.headD []),
        dopplerBins w.wordsPerFrame (w.frameDuration B : ℝ),
        (List.range w.numSubcarriers).map fun (i : ℕ) => ((0 + i : ℕ) : ℝ) * resolution B, fc⟩, none) := by
    unfold Sensor.receive
    rw [hlast, hw, hdet, hbf]
    dsimp only
    rw [List.flatten_singleton, p1]
    dsimp only
    rw [show beamform (some b) [stream] = .ok (b.focus.map (·.headD []), [stream]) by simp [beamform]]
    dsimp only
    rw [if_neg hT, hm, List.length_map, f1]
    dsimp only
    unfold mkCube
    dsimp only
    rw [if_neg (by simp), if_neg (by simp [dopplerBins]), if_neg (by simp), if_neg (not_lt.mpr hfc), Nat.sub_zero]
  refine ⟨_, key, rfl, fun a ha _ i r => ?_⟩
  dsimp only
  rw [f2, if_neg (by simp only [List.length_singleton]; omega)]

/-! ### Storage -/

/-- Storing and restoring an operator, `jcas/jcas.py` 169-176 and `jcas/ofdm_radar.py` 257-260: as radar, without its waveform. -/
noncomputable def restore (c : Config) (a b : ℕ) : Except PyErr Config := File.restore { c.store a b with waveform := none }

/-- C96, storage: everything but the waveform is restored if no array of ports takes the address of another. -/
theorem C96_store_partial (c : Config) (a b : ℕ) (hm : 0 ≤ c.minRange) (hc : ∀ x, c.carrier = some x → 0 ≤ x)
    (hab : c.receivePorts = none ∨ c.transmitPorts = none ∨ a ≠ b) : restore c a b = .ok { c with waveform := none } := by
  have := C94_store_partial { c with waveform := none } a b hm hc hab
  exact this

/-- C96, storage: a restored operator has no waveform, so it never transmits. -/
theorem C96_store_fails (c : Config) (a b : ℕ) (f : ℕ) (hf : c.waveform = some f) (r : Config) (hr : restore c a b = .ok r) :
    r.waveform = none ∧ r ≠ c ∧ ∀ (o : Sensor) (object : ℕ → Wave ℂ × Bool), o.waveform = r.waveform.map object →
      ∀ data B duration, o.transmit data B duration = .error .runtime := by
  have h1 : r.waveform = none := by
    unfold restore File.restore at hr
    dsimp only at hr
    repeat' split at hr
    all_goals first
      | cases hr; rfl
      | cases hr
  refine ⟨h1, ?_, fun o object ho data B duration => ?_⟩
  · rintro rfl
    rw [h1] at hf
    cases hf
  · rw [h1] at ho
    exact (C96_refused o (.ok ()) (fun _ _ _ => 0) [] B 1 0 data duration).2.1 ho

/-! ### Examples -/

/-- Two words of four subcarriers, half of them repeated as prefix. -/
def exampleWave : Wave ℂ where
  numSubcarriers := 4
  structure_ := [.symbols 2 [⟨1, .cyclic, 1 / 2, [⟨.reference, 1⟩, ⟨.data, 3⟩]⟩] 0]
  pilotSection := none
  defaultPilot := fun n => List.replicate n 1

theorem example_fits : exampleWave.Fits := ⟨by decide, by simp [exampleWave]⟩

theorem example_guarded (os : ℕ) (hos : 0 < os) : ∀ s ∈ exampleWave.structure_, Guarded (2 * os) (exampleWave.numSubcarriers * os) s := by
  intro s hs
  rw [List.mem_singleton.1 hs]
  refine ⟨rfl, ?_⟩
  intro r hr
  rw [List.mem_singleton.1 hr]
  have e : ((4 * os : ℕ) : ℚ) * (1 / 2) = ((2 * os : ℕ) : ℚ) := by
    push_cast
    ring
  have : prefixSamples (exampleWave.numSubcarriers * os) ⟨1, .cyclic, 1 / 2, [⟨.reference, 1⟩, ⟨.data, 3⟩]⟩ = 2 * os := by
    simp only [prefixSamples, exampleWave, e]
    exact Nat.floor_natCast _
  refine ⟨rfl, by rw [this], by rw [this]; simp only [exampleWave]; omega⟩

theorem example_place : exampleWave.place [1, 1, 1, 1, 1, 1] [1, 1] = .ok [[1, 1, 1, 1], [1, 1, 1, 1]] := rfl

theorem example_full : ∀ v < exampleWave.wordsPerFrame, ∀ j < exampleWave.numSubcarriers,
    toFn2 [[1, 1, 1, 1], [1, 1, 1, 1]] v j ≠ 0 := by
  intro v hv j hj
  change v < 2 at hv
  change j < 4 at hj
  interval_cases v <;> interval_cases j <;> simp [toFn2, toFn]

theorem example_duration : exampleWave.frameDuration 1 ≠ 0 := by
  unfold Wave.frameDuration
  have : exampleWave.samplesPerFrame 1 1 = 12 := by
    norm_num [Wave.samplesPerFrame, exampleWave, Section.numSamples, prefixSamples]
  rw [this]
  norm_num

/-- An operator which transmitted a frame of ones. -/
def exampleSensor (dc : Bool) : Sensor := ⟨some (exampleWave, dc), [1, 1], none, none, 0, some [[1, 1, 1, 1, 1, 1]]⟩

/-- A target two bins away, of half the amplitude. -/
example : ∃ x : List ℂ, ∀ stream : List ℂ, exampleWave.samplesPerFrame 1 3 ≤ stream.length →
    (∀ m, 2 * 3 ≤ m → m < stream.length → toFn stream m = 1 / 2 * toFn x (m - 2 * 3)) →
    ∃ (cube : Cube ℝ) (i : ℕ), (exampleSensor false).receive (.ok ()) (fun _ _ _ => 7) [stream] 1 3 1 = .ok (cube, none) ∧
      (∀ p ∈ cube.idxs, p ≠ (0, i, 2) → cube.data p < cube.data (0, i, 2)) ∧
      cube.range[2]? = some (light * ((2 * 3 : ℕ) / (((1 : ℚ) : ℝ) * (3 : ℕ))) / 2) := by
  obtain ⟨tx, x, h1, _, h3⟩ := C96_target_partial (exampleSensor false) exampleWave rfl [1, 1, 1, 1, 1, 1] rfl (by decide) (by decide)
    example_fits rfl rfl rfl rfl rfl 1 3 (by norm_num) 1 zero_le_one example_duration 2 (by decide) (example_guarded 3 (by norm_num))
  cases h1.symm.trans example_place
  refine ⟨x, fun stream hl hs => ?_⟩
  obtain ⟨cube, i, k1, _, k3, k4⟩ := h3 example_full (fun _ _ _ => 7) stream (1 / 2) (by norm_num) hl hs
  exact ⟨cube, i, k1, k3, k4⟩

/-- The same target, with direct current suppressed. -/
example : ∃ x : List ℂ, ∀ stream : List ℂ, exampleWave.samplesPerFrame 1 3 ≤ stream.length →
    (∀ m, 2 * 3 ≤ m → m < stream.length → toFn stream m = 1 / 2 * toFn x (m - 2 * 3)) →
    ∃ cube : Cube ℝ, (exampleSensor true).receive (.ok ()) (fun _ _ _ => 7) [stream] 1 3 1 = .ok (cube, none) ∧
      ∀ i < cube.nb, cube.data (0, i, 2) = 0 := by
  obtain ⟨tx, x, h1, _, h3⟩ := C96_dc_fails (exampleSensor true) exampleWave rfl [1, 1, 1, 1, 1, 1] rfl 2 (by decide) rfl (by decide)
    example_fits rfl rfl rfl rfl rfl 1 3 (by norm_num) 1 zero_le_one example_duration (example_guarded 3 (by norm_num))
  cases h1.symm.trans example_place
  refine ⟨x, fun stream hl hs => ?_⟩
  obtain ⟨cube, k1, _, _, k3, _⟩ := h3 example_full (fun _ _ _ => 7) stream (1 / 2) (by norm_num) hl hs
  exact ⟨cube, k1, k3⟩

/-- Two frames. -/
example : ∃ o', (exampleSensor true).transmit (fun _ => [1, 1, 1, 1, 1, 1]) 1 24 = .ok o' := by
  unfold Sensor.transmit exampleSensor
  dsimp only
  rw [if_neg example_duration]
  exact ⟨_, rfl⟩

/-- A stored operator. -/
example : restore ⟨some 3, none, none, 0, none, none, none⟩ 1 1 = .ok ⟨none, none, none, 0, none, none, none⟩ :=
  C96_store_partial _ 1 1 le_rfl (by simp) (Or.inl rfl)

end Verif.OfdmRadar
