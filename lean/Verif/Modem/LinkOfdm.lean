import Verif.Modem.Link
import Verif.Modem.Ofdm
import Verif.Mapping.Demap
import Verif.Fec.Manager

/-!
# Links over OFDM, OTFS and OCDM

The generic link of `Verif.Modem.Link` with the orthogonal waveforms of
`hermespy/modem/waveforms/orthogonal/` and the default constellations of
`hermespy/modem/tools/psk_qam_mapping.py`.
-/

namespace Verif.Modem

open Verif Verif.Fec Verif.Mapping

/-- Samples the modulator never writes hold whatever the allocated memory held.
`hermespy/modem/waveforms/orthogonal/waveform.py` 1293-1295. -/
def fillMemory {α : Type} (memory : Nat → α) (out : List (Option α)) : List α :=
  out.mapIdx fun i o => o.getD (memory i)

/-- An orthogonal waveform as a modem sees it: mapping (1214-1219), `place` with the pilot symbols
(1222-1262), `modulate` (1291-1324), `demodulate` and `pick` (1264-1288, 1326-1366) of
`hermespy/modem/waveforms/orthogonal/waveform.py`. `order` is the modulation order, `memory` the contents of
freshly allocated arrays, `references` the result of `pilot_symbols`. -/
noncomputable def orthogonalWaveform (w : Wave ℂ) (forward backward : List (List ℂ) → List (List ℂ))
    (correct : List (List ℂ) → Int → List (List ℂ)) (bandwidth : ℚ) (os order : Nat)
    (references : List ℂ) (memory : Nat → ℂ) : Waveform ℂ where
  numDataSymbols := w.numDataSymbols
  bitsPerSymbol := Nat.log2 order
  samplesPerFrame := w.samplesPerFrame bandwidth os
  map := getSymbols3gpp order true
  unmap := detectHard3gpp order true 1
  modulate := fun xs =>
    match w.place xs references with
    | .error e => .error e
    | .ok grid =>
      match w.modulate forward bandwidth os grid with
      | .error e => .error e
      | .ok out => .ok (fillMemory memory out)
  demodulate := fun rx =>
    match w.demodulate backward correct bandwidth os rx with
    | .error e => .error e
    | .ok grid => w.pick grid

theorem fill_realises {α : Type} (memory : Nat → α) (out : List (Option α)) :
    Realises out (fillMemory memory out) := by
  unfold Realises fillMemory
  rw [List.forall₂_iff_get]
  refine ⟨by simp, ?_⟩
  intro i h1 h2 a ha
  simp only [List.get_eq_getElem, List.getElem_mapIdx] at ha ⊢
  rw [ha]
  rfl

theorem zipWith_zeros (xs : List ℂ) :
    List.zipWith (· + ·) xs (List.replicate xs.length 0) = xs := by
  induction xs with
  | nil => rfl
  | cons x xs ih => simp [List.replicate_succ, ih]

theorem smallNoise_zero (order : Nat) (cplx : Bool) (hS : Supported order cplx) :
    SmallNoise order cplx 0 := by
  have h : 0 < 1 / Real.sqrt (normOf order cplx) := by
    apply one_div_pos.mpr
    apply Real.sqrt_pos.mpr
    rcases hS with ⟨rfl, rfl | rfl | rfl | rfl | rfl⟩ | ⟨rfl, rfl | rfl | rfl | rfl⟩ <;>
      simp only [normOf] <;> norm_num
  exact ⟨by simpa using h, fun _ _ => by simpa using h⟩

/-- Orthogonal waveforms with the default constellations are lossless, whatever unwritten samples hold. -/
theorem orthogonal_lossless (w : Wave ℂ) (forward backward : List (List ℂ) → List (List ℂ))
    (correct : List (List ℂ) → Int → List (List ℂ)) (bandwidth : ℚ) (os order : Nat)
    (references : List ℂ) (memory : Nat → ℂ) (ho : Supported order true)
    (ht : Lossless w.numSubcarriers os forward backward) (hfit : w.Fits)
    (hoff : ∀ s ∈ w.structure_, s.sampleOffset = 0)
    (hcp : ∀ reps pattern off, Section.symbols reps pattern off ∈ w.structure_ → ∀ r ∈ pattern,
      r.prefixType = .cyclic → prefixSamples (w.numSubcarriers * os) r ≤ w.numSubcarriers * os)
    (hpilot : ∀ e, w.pilotSection = some e →
      (pilotSequence w.defaultPilot e w.numSubcarriers).length = w.numSubcarriers)
    (hr : references.length = w.referencesPerFrame) :
    LosslessWaveform
      (orthogonalWaveform w forward backward correct bandwidth os order references memory) := by
  constructor
  · intro bits hb
    have hlog := log2_pos order true ho
    have hb : bits.length = w.numDataSymbols * Nat.log2 order := hb
    have hdiv : bits.length / Nat.log2 order = w.numDataSymbols := by
      rw [hb]; exact Nat.mul_div_cancel _ hlog
    obtain ⟨xs, soft, h1, h2, _, _, h5⟩ := C13_stream order true ho bits
      (by rw [hb]; exact Nat.mul_mod_left _ _) (List.replicate w.numDataSymbols 0)
      (by rw [hdiv]; simp) (by
        intro e he
        rw [List.eq_of_mem_replicate he]
        exact smallNoise_zero order true ho) 1 one_pos
    refine ⟨xs, h1, by rw [h2]; exact hdiv, ?_⟩
    rw [hdiv] at h2
    rw [← h2, zipWith_zeros] at h5
    exact h5
  · intro xs hx
    obtain ⟨grid, h1, h2, h3, h4, _⟩ := C55_place w hfit xs references hx hr
    obtain ⟨out, k1, k2, k3⟩ := C56_roundtrip w forward backward correct bandwidth os ht hoff hcp hpilot
      grid h2 h3
    refine ⟨fillMemory memory out, ?_, ?_, ?_⟩
    · simp [orthogonalWaveform, h1, k1]
    · simp [fillMemory, orthogonalWaveform, k2]
    · simp only [orthogonalWaveform]
      rw [k3 _ (fill_realises memory out)]
      simp only
      rw [C55_pick w hfit grid h2 h3, h4]

/-- **C60 for OFDM, OTFS and OCDM** (the pairs of transformations of `C56_ofdm`, `C56_otfs`, `C56_ocdm`).
Every configuration (any grid of sections that fit, any cyclic prefixes not longer than a word, with or
without pilot section and DC suppression, any oversampling, no sample offset) with BPSK, QPSK, 16-, 64- or
256-QAM returns the transmitted bits, whatever the unwritten samples of a frame hold. -/
theorem C60_orthogonal {σ : Type} (w : Wave ℂ) (os order : Nat)
    (forward backward : List (List ℂ) → List (List ℂ))
    (ht : (∃ dc, forward = ofdmForward w.numSubcarriers os dc ∧
        backward = ofdmBackward w.numSubcarriers os dc) ∨
      (∃ dc, forward = otfsForward w.numSubcarriers os dc ∧
        backward = otfsBackward w.numSubcarriers os dc) ∨
      (forward = ocdmForward w.numSubcarriers os ∧ backward = ocdmBackward w.numSubcarriers os))
    (correct : List (List ℂ) → Int → List (List ℂ)) (bandwidth : ℚ)
    (references : List ℂ) (memory : Nat → ℂ) (ho : Supported order true)
    (hN : 0 < w.numSubcarriers) (hos : 0 < os) (hfit : w.Fits)
    (hoff : ∀ s ∈ w.structure_, s.sampleOffset = 0)
    (hcp : ∀ reps pattern off, Section.symbols reps pattern off ∈ w.structure_ → ∀ r ∈ pattern,
      r.prefixType = .cyclic → prefixSamples (w.numSubcarriers * os) r ≤ w.numSubcarriers * os)
    (hpilot : ∀ e, w.pilotSection = some e →
      (pilotSequence w.defaultPilot e w.numSubcarriers).length = w.numSubcarriers)
    (hr : references.length = w.referencesPerFrame)
    (hspf : 1 ≤ w.samplesPerFrame bandwidth os) (hdata : 1 ≤ w.numDataSymbols)
    (numStreams : Nat) (hS : 1 ≤ numStreams)
    (m : Manager σ) (htr : m.allowTruncating = true) (hpad : m.allowPadding = true)
    (hes : ∀ e ∈ m.encoders, e.enabled = true → Invertible e ∧ e.K ≤ e.L)
    (hn : ExactlyNested (sizes m.encoders))
    (frameDuration duration : ℚ) (hfd : 0 < frameDuration) (rng source : Nat → Bool) (pos src : Nat)
    (samplingRate : ℚ) :
    ∃ frames blocks m1 rx m2,
      transmit (orthogonalWaveform w forward backward correct bandwidth os order references memory) numStreams
        frameDuration duration m rng source pos src = .ok (frames, blocks, m1) ∧
      frames.length = (if duration ≤ 0 then 1 else ⌊duration / frameDuration⌋₊) ∧
      receive (orthogonalWaveform w forward backward correct bandwidth os order references memory)
        samplingRate m1 blocks = .ok (rx, m2) ∧
      rx.map (·.decodedBits) = frames.map (·.bits) := by
  have hw := orthogonal_lossless w _ _ correct bandwidth os order references memory ho
    (show Lossless w.numSubcarriers os forward backward by
      rcases ht with ⟨dc, rfl, rfl⟩ | ⟨dc, rfl, rfl⟩ | ⟨rfl, rfl⟩
      · exact C56_ofdm w.numSubcarriers os dc hN hos
      · exact C56_otfs w.numSubcarriers os dc hN hos
      · exact C56_ocdm w.numSubcarriers os hN hos) hfit hoff hcp hpilot hr
  have hb : 1 ≤ w.numDataSymbols * Nat.log2 order := Nat.mul_pos hdata (log2_pos order true ho)
  obtain ⟨frames, blocks, m1, h1, h2, h3⟩ := C60_link _ hw hspf numStreams hS hb m htr hes hn (Or.inl hpad)
    frameDuration duration hfd rng source pos src
  obtain ⟨_, _, _, m1', _, _, k3, k4, _⟩ := C60_transmission _ hw numStreams hS hb m htr hes hn
    (Or.inl hpad) frameDuration duration hfd rng source pos src
  rw [h1] at k3
  cases k3
  obtain ⟨⟨rx, m2, e1, e2, _⟩, _⟩ := h3 m1 k4 samplingRate
  exact ⟨frames, _, m1, rx, m2, h1, h2, e1, e2⟩

/-- Two streams, five frames of 16-QAM OFDM with a rate one third repetition code and padding: 48 code bits
per frame hold eight code blocks of two bits. -/
example (correct : List (List ℂ) → Int → List (List ℂ)) (memory : Nat → ℂ) (rng source : Nat → Bool) :
    ∃ frames blocks m1 rx m2,
      transmit (orthogonalWaveform exampleFrame (ofdmForward 4 2 true) (ofdmBackward 4 2 true) correct 1 2 16
          [1, 1] memory) 2 14 (5 * 14 + 3)
        (⟨[repetitionEncoder 2 3 ()], true, true⟩ : Manager Unit) rng source 0 0 =
          .ok (frames, blocks, m1) ∧
      frames.length = 5 ∧
      receive (orthogonalWaveform exampleFrame (ofdmForward 4 2 true) (ofdmBackward 4 2 true) correct 1 2 16
          [1, 1] memory) 2 m1 blocks = .ok (rx, m2) ∧
      rx.map (·.decodedBits) = frames.map (·.bits) := by
  obtain ⟨frames, blocks, m1, rx, m2, h1, h2, h3⟩ := C60_orthogonal exampleFrame 2 16
    (ofdmForward 4 2 true) (ofdmBackward 4 2 true) (Or.inl ⟨true, rfl, rfl⟩) correct 1 [1, 1] memory
    (Or.inl ⟨rfl, by decide⟩) (by decide) (by decide)
    (by
      constructor
      · intro s hs
        simp only [exampleFrame, List.mem_cons, List.not_mem_nil, or_false] at hs
        rcases hs with rfl | rfl <;> decide
      · intro e he
        simp [exampleFrame] at he)
    (by
      intro s hs
      simp only [exampleFrame, List.mem_cons, List.not_mem_nil, or_false] at hs
      rcases hs with rfl | rfl <;> rfl)
    (by
      intro reps pattern off hs r hr _
      simp only [exampleFrame, List.mem_cons, List.not_mem_nil, or_false, reduceCtorEq,
        Section.symbols.injEq] at hs
      obtain ⟨_, rfl, _⟩ := hs
      simp only [List.mem_singleton] at hr
      subst hr
      apply Nat.floor_le_of_le
      norm_num [exampleFrame])
    (by
      intro e he
      simp only [exampleFrame, Option.some.injEq] at he
      subst he
      simp [exampleFrame, pilotSequence])
    (by decide) (by decide) (by decide) 2 (by omega) ⟨[repetitionEncoder 2 3 ()], true, true⟩ rfl rfl
    (by
      intro e he _
      rw [List.mem_singleton.mp he]
      exact ⟨repetitionEncoder_invertible 2 3 (by omega) rfl (), by decide⟩)
    trivial 14 (5 * 14 + 3) (by norm_num) rng source 0 0 2
  refine ⟨frames, blocks, m1, rx, m2, h1, ?_, h3⟩
  rw [h2, if_neg (by norm_num)]
  rw [Nat.floor_eq_iff (by norm_num)]
  norm_num

end Verif.Modem
