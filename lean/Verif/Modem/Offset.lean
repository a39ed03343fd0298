import Verif.Modem.Ofdm

/-!
# Sample offsets

A symbol section may be read `sample_offset` samples early, inside its cyclic prefixes; `demodulate` then
corrects the phase of the symbols. `hermespy/modem/waveforms/orthogonal/{waveform,ofdm,otfs,ocdm}.py`.
-/

namespace Verif.Modem

open Complex Finset Verif.Dft

/-- Normalised frequency of subcarrier `j` as used by the correction: entry `i` of
`fftshift(fftfreq(n))` is `(i - n // 2) / n`; with `dc_suppression` the entries from `N // 2` on are rolled
by one. `waveforms/orthogonal/ofdm.py` 166-175. -/
noncomputable def correctionFreq (N os : Nat) (dc : Bool) (j : Nat) : ℂ :=
  (((padStart N os + unrollSource dc N j : Nat) : ℂ) - ((N * os / 2 : Nat) : ℂ)) / ((N * os : Nat) : ℂ)

/-- `OFDMWaveform._correct_sample_offset`. `waveforms/orthogonal/ofdm.py` 163-177. -/
noncomputable def ofdmCorrect (N os : Nat) (dc : Bool) (rows : List (List ℂ)) (off : Int) :
    List (List ℂ) :=
  rows.map fun row => ofFn N fun j =>
    toFn row j * exp (2 * Real.pi * I * correctionFreq N os dc j * off)

/-- `OCDMWaveform._correct_sample_offset`, a stub. `waveforms/orthogonal/ocdm.py` 67-72. -/
def ocdmCorrect (rows : List (List ℂ)) (_ : Int) : List (List ℂ) := rows

/-! ### Words read early -/

theorem toFn_shiftWord (n off : Nat) (hoff : off ≤ n) (f : Nat → ℂ) (i : Nat) (hi : i < n) :
    toFn (shiftWord off (ofFn n f)) i = f ((i + (n - off)) % n) := by
  unfold toFn shiftWord
  rw [ofFn_length]
  by_cases h : i < off
  · rw [List.getElem?_append_left (by rw [List.length_drop, ofFn_length]; omega), List.getElem?_drop,
      Nat.mod_eq_of_lt (by omega)]
    have e : n - off + i < n := by omega
    rw [Nat.add_comm i]
    simp [ofFn, e]
  · have e1 : ((ofFn n f).drop (n - off)).length = off := by
      rw [List.length_drop, ofFn_length]; omega
    have e2 : i - off < n - off := by omega
    have e3 : i - off < n := by omega
    rw [List.getElem?_append_right (by omega), e1, List.getElem?_take_of_lt e2,
      show i + (n - off) = (i - off) + n by omega, Nat.add_mod_right, Nat.mod_eq_of_lt e3]
    simp [ofFn, e3]

theorem exp_periodic (z : ℂ) (k : ℤ) : exp (z + k * (2 * Real.pi * I)) = exp z := by
  rw [Complex.exp_add, Complex.exp_int_mul_two_pi_mul_I, mul_one]

/-- A cyclic shift in time is a phase rotation in frequency. -/
theorem ifft_shift (n off : Nat) (hn : 0 < n) (hoff : off ≤ n) (p : Nat → ℂ) (i : Nat) :
    ifft .forward n p ((i + (n - off)) % n) =
      ifft .forward n (fun k => p k * exp (-(2 * Real.pi * I * k * off / n))) i := by
  unfold ifft
  congr 1
  refine Finset.sum_congr rfl fun k _ => ?_
  beta_reduce
  rw [mul_assoc (p k), ← Complex.exp_add]
  congr 1
  have hn0 : (n : ℂ) ≠ 0 := by exact_mod_cast hn.ne'
  have hd := Nat.mod_add_div (i + (n - off)) n
  set a := (i + (n - off)) % n
  set q := (i + (n - off)) / n
  have hc : (a : ℂ) = i - off + n * (1 - q) := by
    have : a + n * q + off = i + n := by omega
    have h : ((a + n * q + off : Nat) : ℂ) = ((i + n : Nat) : ℂ) := by rw [this]
    push_cast at h
    linear_combination h
  rw [← exp_periodic (-(2 * Real.pi * I * k * off / n) + 2 * Real.pi * I * i * k / n)
    ((k : ℤ) * (1 - (q : ℤ)))]
  congr 1
  rw [hc]
  push_cast
  field_simp
  ring

/-- A word read `off` samples early: every symbol is rotated by its frequency. -/
theorem ofdm_shift_row (N os : Nat) (dc : Bool) (hN : 0 < N) (hos : 0 < os) (off : Nat)
    (hoff : off ≤ N * os) (x : Nat → ℂ) (j : Nat) (hj : j < N) :
    ofdmBackwardRow N os dc
        (fun i => ofdmForwardRow N os dc x ((i + (N * os - off)) % (N * os))) j =
      x j * exp (-(2 * Real.pi * I *
        (((unrollSource dc (N * os) (padStart N os + j) : Nat) : ℂ) - ((N * os / 2 : Nat) : ℂ)) *
          off / ((N * os : Nat) : ℂ))) := by
  have hn : 0 < N * os := Nat.mul_pos hN hos
  have hlt := padStart_le N os hos j hj
  have hult := unroll_lt dc _ _ hlt
  have hn0 : ((N * os : Nat) : ℂ) ≠ 0 := by exact_mod_cast hn.ne'
  set n := N * os with hndef
  set u := unrollSource dc n (padStart N os + j) with hu
  have hfun : (fun i => ofdmForwardRow N os dc x ((i + (n - off)) % n)) =
      ifft .forward n (fun k => padded N os x (rollSource dc n ((k + n / 2) % n)) *
        exp (-(2 * Real.pi * I * k * off / n))) := by
    funext i
    rw [← ifft_shift n off hn hoff]
    rfl
  unfold ofdmBackwardRow
  rw [← hndef, ← hu, hfun, fft_ifft_unnormalised _ _ _ (Nat.mod_lt _ hn), mod_shift _ _ hult, hu,
    roll_unroll dc _ _ hlt, ← hu, padded, if_pos (by omega), Nat.add_sub_cancel_left]
  have hphase : exp (-(2 * Real.pi * I * ((u + (n - n / 2)) % n : Nat) * off / n)) =
      exp (-(2 * Real.pi * I * ((u : ℂ) - ((n / 2 : Nat) : ℂ)) * off / n)) := by
    have hd := Nat.mod_add_div (u + (n - n / 2)) n
    set a := (u + (n - n / 2)) % n
    set q := (u + (n - n / 2)) / n
    have hc : (a : ℂ) = u - ((n / 2 : Nat) : ℂ) + n * (1 - q) := by
      have : a + n * q + n / 2 = u + n := by omega
      have h : ((a + n * q + n / 2 : Nat) : ℂ) = ((u + n : Nat) : ℂ) := by rw [this]
      push_cast at h
      push_cast
      linear_combination h
    rw [← exp_periodic (-(2 * Real.pi * I * ((u : ℂ) - ((n / 2 : Nat) : ℂ)) * off / n))
      ((off : ℤ) * ((q : ℤ) - 1))]
    congr 1
    rw [hc]
    push_cast
    field_simp
    ring
  rw [hphase]
  have := scale_one N os hN hos
  rw [← hndef] at this
  calc _ = x j * exp (-(2 * Real.pi * I * ((u : ℂ) - ((n / 2 : Nat) : ℂ)) * off / n)) *
        (((n : Nat) : ℂ) * (1 / ((Real.sqrt N : ℝ) : ℂ)) *
        (1 / ((Real.sqrt N : ℝ) : ℂ) / (os : ℂ))) := by ring
    _ = _ := by rw [this, mul_one]

/-- Where the corrected frequency is that of the subcarrier. -/
theorem freq_match (N os : Nat) (dc : Bool) (h : dc = false ∨ os = 1) (j : Nat) :
    unrollSource dc (N * os) (padStart N os + j) = padStart N os + unrollSource dc N j := by
  rcases h with rfl | rfl
  · simp [unrollSource]
  · simp [padStart, unrollSource]

/-- A word read early. -/
theorem ofdm_backward_word (N os : Nat) (dc : Bool) (hN : 0 < N) (hos : 0 < os) (off : Nat)
    (hoff : off ≤ N * os) (row : List ℂ) :
    ofdmBackward N os dc ((ofdmForward N os dc [row]).map (shiftWord off)) =
      [ofFn N fun j => toFn row j * exp (-(2 * Real.pi * I *
        (((unrollSource dc (N * os) (padStart N os + j) : Nat) : ℂ) - ((N * os / 2 : Nat) : ℂ)) *
          off / ((N * os : Nat) : ℂ)))] := by
  unfold ofdmBackward ofdmForward
  simp only [List.map_cons, List.map_nil]
  congr 1
  apply ofFn_congr
  intro j hj
  rw [← ofdm_shift_row N os dc hN hos off hoff _ j hj]
  unfold ofdmBackwardRow
  congr 1
  apply fft_congr
  intro i hi
  exact toFn_shiftWord _ _ hoff _ _ hi

/-- A word read early and corrected: what remains of the rotation. -/
theorem ofdm_correct_word (N os : Nat) (dc : Bool) (hN : 0 < N) (hos : 0 < os) (off : Nat)
    (hoff : off ≤ N * os) (row : List ℂ) :
    ofdmCorrect N os dc (ofdmBackward N os dc ((ofdmForward N os dc [row]).map (shiftWord off))) off =
      [ofFn N fun j => toFn row j * exp (-(2 * Real.pi * I *
        (((unrollSource dc (N * os) (padStart N os + j) : Nat) : ℂ) -
          ((padStart N os + unrollSource dc N j : Nat) : ℂ)) * off / ((N * os : Nat) : ℂ)))] := by
  rw [ofdm_backward_word N os dc hN hos off hoff row]
  unfold ofdmCorrect
  simp only [List.map_cons, List.map_nil]
  congr 1
  apply ofFn_congr
  intro j hj
  rw [toFn_ofFn _ _ _ hj, mul_assoc, ← Complex.exp_add]
  congr 2
  unfold correctionFreq
  rw [Int.cast_natCast]
  ring

theorem ofdm_words (N os : Nat) (dc : Bool) (off : Nat) (rows : List (List ℂ)) :
    ofdmCorrect N os dc (ofdmBackward N os dc ((ofdmForward N os dc rows).map (shiftWord off))) off =
      rows.flatMap fun row => ofdmCorrect N os dc
        (ofdmBackward N os dc ((ofdmForward N os dc [row]).map (shiftWord off))) off := by
  unfold ofdmCorrect ofdmBackward ofdmForward
  rw [List.map_map, List.map_map, List.map_map]
  induction rows with
  | nil => rfl
  | cons row rows ih =>
    rw [List.flatMap_cons, ← ih]
    rfl

/-- Words of a section read early and corrected. -/
theorem ofdm_correct_shift (N os : Nat) (dc : Bool) (hN : 0 < N) (hos : 0 < os)
    (hdc : dc = false ∨ os = 1) (off : Nat) (hoff : off ≤ N * os) (rows : List (List ℂ))
    (hrow : ∀ row ∈ rows, row.length = N) :
    ofdmCorrect N os dc (ofdmBackward N os dc ((ofdmForward N os dc rows).map (shiftWord off))) off =
      rows := by
  rw [ofdm_words]
  have : ∀ row ∈ rows, ofdmCorrect N os dc
      (ofdmBackward N os dc ((ofdmForward N os dc [row]).map (shiftWord off))) off = [row] := by
    intro row hr
    rw [ofdm_correct_word N os dc hN hos off hoff row]
    have e : ofFn N (toFn row) = row := by rw [← hrow row hr, ofFn_toFn]
    conv_rhs => rw [← e]
    congr 1
    apply ofFn_congr
    intro j _
    rw [freq_match N os dc hdc, sub_self, mul_zero, zero_mul, zero_div, neg_zero, Complex.exp_zero,
      mul_one]
  clear hrow
  induction rows with
  | nil => rfl
  | cons row rows ih =>
    rw [List.flatMap_cons, this row (by simp), ih (fun r h => this r (by simp [h]))]
    rfl

/-! ### Frames -/

theorem shiftedGrid_append (pre ss : List (Section ℂ)) (hpre : ∀ s ∈ pre, s.numWords = 0)
    (rows : List (List ℂ)) : shiftedGrid (pre ++ ss) rows = shiftedGrid ss rows := by
  induction pre with
  | nil => rfl
  | cons s pre ih =>
    rw [List.cons_append, shiftedGrid, hpre s (by simp)]
    simpa using ih (fun s h => hpre s (by simp [h]))

theorem correctLoop_append (correct : List (List ℂ) → Int → List (List ℂ))
    (pre ss : List (Section ℂ)) (hpre : ∀ s ∈ pre, s.sampleOffset = 0) (rows : List (List ℂ)) :
    correctLoop correct (pre ++ ss) rows = correctLoop correct ss rows := by
  induction pre with
  | nil => rfl
  | cons s pre ih =>
    rw [List.cons_append, correctLoop, if_neg (by simp [hpre s]), ih (fun s h => hpre s (by simp [h]))]

/-- C57, OFDM: a frame whose first words are read up to the length of their cyclic prefixes early is
recovered exactly, provided that no later section has an offset and that the direct current is not
suppressed (or the signal not oversampled). Only guard sections may precede the offset section. -/
theorem C57_ofdm_partial (w : Wave ℂ) (dc : Bool) (bandwidth : ℚ) (os : Nat)
    (hN : 0 < w.numSubcarriers) (hos : 0 < os) (hdc : dc = false ∨ os = 1)
    (pre : List (Section ℂ)) (s : Section ℂ) (post : List (Section ℂ))
    (hstruct : w.structure_ = pre ++ s :: post)
    (hpre : ∀ g ∈ pre, g.numWords = 0 ∧ g.sampleOffset = 0)
    (hpost : ∀ g ∈ post, g.sampleOffset = 0)
    (hok : ∀ s ∈ w.structure_, SectionOk (w.numSubcarriers * os) s)
    (hoff : 0 ≤ s.sampleOffset ∧ s.sampleOffset ≤ (w.numSubcarriers * os : Nat))
    (hpilot : ∀ e, w.pilotSection = some e →
      (pilotSequence w.defaultPilot e w.numSubcarriers).length = w.numSubcarriers)
    (grid : List (List ℂ)) (hl : grid.length = w.wordsPerFrame)
    (hrow : ∀ row ∈ grid, row.length = w.numSubcarriers) :
    ∃ out, w.modulate (ofdmForward w.numSubcarriers os dc) bandwidth os grid = .ok out ∧
      ∀ rx, Realises out rx →
        w.demodulate (ofdmBackward w.numSubcarriers os dc) (ofdmCorrect w.numSubcarriers os dc)
          bandwidth os rx = .ok grid := by
  obtain ⟨out, h1, _, h3⟩ := demodulate_modulate w _ _ (ofdmCorrect w.numSubcarriers os dc) bandwidth os
    (C56_ofdm w.numSubcarriers os dc hN hos) hok hpilot grid hl hrow
  refine ⟨out, h1, fun rx hrx => ?_⟩
  rw [h3 rx hrx, hstruct, shiftedGrid_append _ _ (fun g hg => (hpre g hg).1),
    correctLoop_append _ _ _ (fun g hg => (hpre g hg).2), shiftedGrid, shiftedGrid_zero _ hpost,
    correctLoop, correctLoop_zero _ _ hpost, correctLoop_zero _ _ hpost]
  set N := w.numSubcarriers
  set k := s.numWords
  have hb : ∀ a b : List (List ℂ), ofdmBackward N os dc (a ++ b) =
      ofdmBackward N os dc a ++ ofdmBackward N os dc b := fun a b => List.map_append
  have hft : (ofdmForward N os dc grid).take k = ofdmForward N os dc (grid.take k) := by
    unfold ofdmForward; rw [List.map_take]
  have hfd : (ofdmForward N os dc grid).drop k = ofdmForward N os dc (grid.drop k) := by
    unfold ofdmForward; rw [List.map_drop]
  have htake : ∀ r ∈ grid.take k, r.length = N := fun r h => hrow r (List.mem_of_mem_take h)
  have hdrop : ∀ r ∈ grid.drop k, r.length = N := fun r h => hrow r (List.mem_of_mem_drop h)
  rw [hb, hft, hfd, (C56_ofdm N os dc hN hos (grid.drop k) hdrop).2.2]
  have hkl : (ofdmBackward N os dc
      ((ofdmForward N os dc (grid.take k)).map (shiftWord s.sampleOffset.toNat))).length =
      (grid.take k).length := by simp [ofdmBackward, ofdmForward]
  have hkle : (grid.take k).length ≤ k := by rw [List.length_take]; omega
  by_cases h0 : s.sampleOffset = 0
  · rw [if_neg (by simp [h0]), h0]
    have : (shiftWord (0 : Int).toNat : List ℂ → List ℂ) = id := by
      funext r; exact shiftWord_zero r
    rw [this, List.map_id, (C56_ofdm N os dc hN hos (grid.take k) htake).2.2, List.take_append_drop]
  · rw [if_pos h0]
    have hso : ((s.sampleOffset.toNat : Nat) : Int) = s.sampleOffset := Int.toNat_of_nonneg hoff.1
    have hcs := ofdm_correct_shift N os dc hN hos hdc s.sampleOffset.toNat (by omega) (grid.take k) htake
    rw [hso] at hcs
    by_cases hk : k ≤ grid.length
    · have hlen : (grid.take k).length = k := by rw [List.length_take]; omega
      rw [hlen] at hkl
      rw [List.take_append_of_le_length (by omega), List.take_of_length_le (by omega), hcs,
        List.drop_append_of_le_length (by omega), List.drop_of_length_le (by omega), List.nil_append,
        List.take_append_drop]
    · have hd : grid.drop k = [] := List.drop_of_length_le (by omega)
      rw [hd, List.append_nil, List.take_of_length_le (by omega), hcs, List.drop_of_length_le (by omega),
        List.append_nil, List.take_of_length_le (by omega)]

/-- One word with a cyclic prefix of `ratio`, read `off` samples early. -/
def oneWord (N : Nat) (ratio : ℚ) (off : Int) : Wave ℂ :=
  ⟨N, [.symbols 1 [⟨1, .cyclic, ratio, [⟨.data, N⟩]⟩] off], none, fun _ => []⟩

/-- The partial theorem applies to a word of two subcarriers read one sample early. -/
example (a b : ℂ) : ∃ out, (oneWord 2 (1 / 2) 1).modulate (ofdmForward 2 1 true) 1 1 [[a, b]] = .ok out ∧
    ∀ rx, Realises out rx → (oneWord 2 (1 / 2) 1).demodulate (ofdmBackward 2 1 true)
      (ofdmCorrect 2 1 true) 1 1 rx = .ok [[a, b]] := by
  have hfl : ⌊((2 * 1 : Nat) : ℚ) * (1 / 2)⌋₊ = 1 := by
    rw [Nat.floor_eq_iff (by norm_num)]; norm_num
  apply C57_ofdm_partial (oneWord 2 (1 / 2) 1) true 1 1 (by decide) (by decide) (Or.inr rfl) [] _ [] rfl
    (by simp) (by simp)
  · intro s hs
    simp only [oneWord, List.mem_singleton] at hs
    subst hs
    refine ⟨by decide, ?_⟩
    intro r hr
    simp only [List.mem_singleton] at hr
    subst hr
    exact ⟨fun _ => hfl.le.trans (by decide), Or.inr ⟨rfl, hfl.ge⟩⟩
  · decide
  · intro e he
    cases he
  · rfl
  · simp [oneWord]

/-- What a receiver makes of a frame of one word, for any transformation. -/
theorem oneWord_demodulate (N os : Nat) (ratio bandwidth : ℚ) (off : Nat)
    (forward backward : List (List ℂ) → List (List ℂ)) (ht : Lossless N os forward backward)
    (hlen : ∀ g, (backward g).length = g.length)
    (correct : List (List ℂ) → Int → List (List ℂ)) (hpos : 0 < off)
    (hle : ⌊((N * os : Nat) : ℚ) * ratio⌋₊ ≤ N * os) (hoff : off ≤ ⌊((N * os : Nat) : ℚ) * ratio⌋₊)
    (row : List ℂ) (hrow : row.length = N) :
    ∃ out, (oneWord N ratio off).modulate forward bandwidth os [row] = .ok out ∧
      ∀ rx, Realises out rx → (oneWord N ratio off).demodulate backward correct bandwidth os rx =
        .ok (correct (backward ((forward [row]).map (shiftWord off))) off) := by
  obtain ⟨out, h1, _, h3⟩ := demodulate_modulate (oneWord N ratio off) forward backward correct bandwidth os
    ht (by
      intro s hs
      simp only [oneWord, List.mem_singleton] at hs
      subst hs
      refine ⟨by simp, ?_⟩
      intro r hr
      simp only [List.mem_singleton] at hr
      subst hr
      exact ⟨fun _ => hle, Or.inr ⟨rfl, by rw [Int.toNat_natCast]; exact hoff⟩⟩)
    (by intro e he; cases he) [row] (by simp [oneWord, Wave.wordsPerFrame, Section.numWords])
    (by simpa [oneWord] using hrow)
  refine ⟨out, h1, fun rx hrx => ?_⟩
  rw [h3 rx hrx]
  have hl1 : (forward [row]).length = 1 := (ht [row] (by simpa using hrow)).1
  have hs : shiftedGrid (oneWord N ratio off).structure_ (forward [row]) =
      (forward [row]).map (shiftWord off) := by
    simp only [oneWord, shiftedGrid, Section.numWords, Section.sampleOffset, List.length_singleton,
      Nat.mul_one, Int.toNat_natCast]
    rw [List.take_of_length_le (by omega), List.drop_of_length_le (by omega), List.append_nil]
  rw [hs]
  have hc : ∀ g : List (List ℂ), g.length ≤ 1 →
      correctLoop correct (oneWord N ratio off).structure_ g = correct g off := by
    intro g hg
    have h0 : ((off : Nat) : Int) ≠ 0 := by omega
    simp only [oneWord, correctLoop, Section.numWords, Section.sampleOffset, List.length_singleton,
      Nat.mul_one, if_pos h0]
    rw [List.take_of_length_le hg, List.drop_of_length_le hg, List.append_nil]
  rw [hc _ (by rw [hlen, List.length_map, hl1])]

theorem exp_ne_one (a n : Nat) (ha : 0 < a) (han : a < n) :
    exp (-(2 * Real.pi * I * a / n)) ≠ 1 := by
  intro h
  rw [Complex.exp_eq_one_iff] at h
  obtain ⟨k, hk⟩ := h
  have hn0 : (n : ℂ) ≠ 0 := by
    have : n ≠ 0 := by omega
    exact_mod_cast this
  have h1 : (a : ℂ) = ((-(k * n) : ℤ) : ℂ) := by
    have h2 : -(2 * Real.pi * I) * ((a : ℂ) / n) = -(2 * Real.pi * I) * (-k) := by
      rw [← mul_div_assoc]
      linear_combination hk
    have h3 := mul_left_cancel₀ (neg_ne_zero.2 Complex.two_pi_I_ne_zero) h2
    rw [div_eq_iff hn0] at h3
    rw [h3]
    push_cast
    ring
  have h4 : (a : ℤ) = -(k * n) := by exact_mod_cast h1
  have hk0 : k < 0 := by
    by_contra hc
    have : 0 ≤ k * n := mul_nonneg (by omega) (by omega)
    omega
  have : (n : ℤ) ≤ -k * n := by nlinarith
  have : -(k * n) = -k * (n : ℤ) := by ring
  omega

/-- C57 is false for OFDM with suppressed direct current and oversampling: the last symbol of every word
read early is returned rotated, whatever the (positive) offset. -/
theorem C57_dc_suppression_fails (N os : Nat) (hN : 2 ≤ N) (hos : 2 ≤ os) (off : Nat) (hpos : 0 < off)
    (hsmall : (N - N / 2) * off < N * os) (ratio bandwidth : ℚ)
    (hle : ⌊((N * os : Nat) : ℚ) * ratio⌋₊ ≤ N * os) (hoff : off ≤ ⌊((N * os : Nat) : ℚ) * ratio⌋₊)
    (row : List ℂ) (hrow : row.length = N) (hlast : toFn row (N - 1) ≠ 0) :
    ∃ out row', (oneWord N ratio off).modulate (ofdmForward N os true) bandwidth os [row] = .ok out ∧
      (∀ rx, Realises out rx → (oneWord N ratio off).demodulate (ofdmBackward N os true)
        (ofdmCorrect N os true) bandwidth os rx = .ok [row']) ∧
      toFn row' (N - 1) ≠ toFn row (N - 1) := by
  obtain ⟨out, h1, h2⟩ := oneWord_demodulate N os ratio bandwidth off _ _
    (C56_ofdm N os true (by omega) (by omega)) (fun g => by simp [ofdmBackward]) (ofdmCorrect N os true)
    hpos hle hoff row hrow
  simp only [ofdm_correct_word N os true (by omega) (by omega) off (by omega) row] at h2
  refine ⟨out, _, h1, h2, ?_⟩
  · rw [toFn_ofFn _ _ _ (by omega)]
    have h2n : N * 2 ≤ N * os := Nat.mul_le_mul_left N hos
    have e1 : unrollSource true (N * os) (padStart N os + (N - 1)) = padStart N os + N := by
      unfold unrollSource padStart
      rw [Nat.mul_comm os N, if_pos ⟨rfl, by omega⟩, if_neg (by omega)]
      omega
    have e2 : unrollSource true N (N - 1) = N / 2 := by
      unfold unrollSource
      rw [if_pos ⟨rfl, by omega⟩, if_pos rfl]
    rw [e1, e2]
    intro h
    have h3 : exp (-(2 * Real.pi * I * (((padStart N os + N : Nat) : ℂ) -
        ((padStart N os + N / 2 : Nat) : ℂ)) * off / ((N * os : Nat) : ℂ))) = 1 :=
      mul_left_cancel₀ hlast (by rw [h, mul_one])
    apply exp_ne_one ((N - N / 2) * off) (N * os) (Nat.mul_pos (by omega) hpos) hsmall
    rw [← h3]
    congr 3
    have : ((N - N / 2 : Nat) : ℂ) = (N : ℂ) - ((N / 2 : Nat) : ℂ) := by
      rw [Nat.cast_sub (by omega)]
    rw [Nat.cast_mul, this, Nat.cast_add, Nat.cast_add]
    ring

/-- C57 is false for OCDM: the correction is a stub. Two subcarriers read one sample early are returned
swapped. -/
theorem C57_ocdm_fails (a b : ℂ) (bandwidth : ℚ) :
    ∃ out, (oneWord 2 (1 / 2) 1).modulate (ocdmForward 2 1) bandwidth 1 [[a, b]] = .ok out ∧
      ∀ rx, Realises out rx → (oneWord 2 (1 / 2) 1).demodulate (ocdmBackward 2 1) ocdmCorrect bandwidth 1 rx =
        .ok [[b, a]] := by
  have hfl : ⌊((2 * 1 : Nat) : ℚ) * (1 / 2)⌋₊ = 1 := by
    rw [Nat.floor_eq_iff (by norm_num)]; norm_num
  obtain ⟨out, h1, h2⟩ := oneWord_demodulate 2 1 (1 / 2) bandwidth 1 _ _
    (C56_ocdm 2 1 (by omega) (by omega)) (fun g => by simp [ocdmBackward]) ocdmCorrect
    (by omega) (by rw [hfl]; omega) (by rw [hfl]) [a, b] rfl
  refine ⟨out, h1, fun rx hrx => ?_⟩
  have e : (ocdmForward 2 1 [[a, b]]).map (shiftWord 1) = ocdmForward 2 1 [[b, a]] := by
    have f00 : fresnel 2 1 0 0 = fresnel 2 1 1 1 := by unfold fresnel fresnelPhase; norm_num
    have f01 : fresnel 2 1 0 1 = fresnel 2 1 1 0 := by unfold fresnel fresnelPhase; norm_num
    simp [ocdmForward, ofFn, List.range_succ, shiftWord, ocdmForwardRow, Finset.sum_range_succ, toFn, f00, f01]
    constructor <;> ring
  have h := h2 rx hrx
  rw [e, (C56_ocdm 2 1 (by omega) (by omega) [[b, a]] (by simp)).2.2] at h
  exact h

/-- C57 is false for OTFS: the correction of OFDM is applied after the change of domain. Of two
subcarriers read one sample early, the first is lost. -/
theorem C57_otfs_fails (bandwidth : ℚ) :
    ∃ out row', (oneWord 2 (1 / 2) 1).modulate (otfsForward 2 1 false) bandwidth 1 [[1, 0]] = .ok out ∧
      (∀ rx, Realises out rx → (oneWord 2 (1 / 2) 1).demodulate (otfsBackward 2 1 false)
        (ofdmCorrect 2 1 false) bandwidth 1 rx = .ok [row']) ∧ toFn row' 0 = 0 := by
  have hfl : ⌊((2 * 1 : Nat) : ℚ) * (1 / 2)⌋₊ = 1 := by
    rw [Nat.floor_eq_iff (by norm_num)]; norm_num
  obtain ⟨out, h1, h2⟩ := oneWord_demodulate 2 1 (1 / 2) bandwidth 1 _ _
    (C56_otfs 2 1 false (by omega) (by omega)) (fun g => by simp [otfsBackward, ofdmBackward, ofFn2])
    (ofdmCorrect 2 1 false) (by omega) (by rw [hfl]; omega) (by rw [hfl]) [1, 0] rfl
  have e : otfsBackward 2 1 false ((otfsForward 2 1 false [[1, 0]]).map (shiftWord 1)) =
      [ofFn 2 (sfft 1 2 (toFn2 [ofFn 2 fun j => toFn (ofFn 2 (isfft 1 2 (toFn2 [[1, 0]]) 0)) j *
        exp (-(2 * Real.pi * I * (((unrollSource false (2 * 1) (padStart 2 1 + j) : Nat) : ℂ) -
          ((2 * 1 / 2 : Nat) : ℂ)) * (1 : Nat) / ((2 * 1 : Nat) : ℂ)))]) 0)] := by
    have e1 : otfsForward 2 1 false [[1, 0]] =
        ofdmForward 2 1 false [ofFn 2 (isfft 1 2 (toFn2 [[1, 0]]) 0)] := by
      simp [otfsForward, ofFn2]
    rw [e1]
    unfold otfsBackward
    rw [ofdm_backward_word 2 1 false (by omega) (by omega) 1 (by omega)]
    simp [ofFn2]
  simp only [e, ofdmCorrect, List.map_cons, List.map_nil] at h2
  refine ⟨out, _, h1, h2, ?_⟩
  rw [toFn_ofFn _ _ _ (by omega), toFn_ofFn _ _ _ (by omega)]
  have hz : sfft 1 2 (toFn2 [ofFn 2 fun j => toFn (ofFn 2 (isfft 1 2 (toFn2 [[1, 0]]) 0)) j *
        exp (-(2 * Real.pi * I * (((unrollSource false (2 * 1) (padStart 2 1 + j) : Nat) : ℂ) -
          ((2 * 1 / 2 : Nat) : ℂ)) * (1 : Nat) / ((2 * 1 : Nat) : ℂ)))]) 0 0 = 0 := by
    have hexp : exp (-(-(2 * Real.pi * I) / 2)) = -1 := by
      rw [show -(-(2 * Real.pi * I) / 2) = Real.pi * I by ring, Complex.exp_pi_mul_I]
    simp [sfft, isfft, fft, ifft, Finset.sum_range_succ, toFn2, toFn, ofFn, List.range_succ, unrollSource,
      padStart, hexp, Norm.fwd, Norm.bwd]
  rw [hz, zero_mul]

/-- Two words in two sections, the second read one sample early. -/
def twoSections : Wave ℂ :=
  ⟨2, [.symbols 1 [⟨1, .cyclic, 1 / 2, [⟨.data, 2⟩]⟩] 0, .symbols 1 [⟨1, .cyclic, 1 / 2, [⟨.data, 2⟩]⟩] 1],
    none, fun _ => []⟩

/-- C57 is false for any section but the first: the correction is applied to the first words of the
frame. Here both the first word, which is not read early, and the second one come back rotated. -/
theorem C57_second_section_fails (a b c d : ℂ) (bandwidth : ℚ) :
    ∃ out, twoSections.modulate (ofdmForward 2 1 false) bandwidth 1 [[a, b], [c, d]] = .ok out ∧
      ∀ rx, Realises out rx → twoSections.demodulate (ofdmBackward 2 1 false) (ofdmCorrect 2 1 false)
        bandwidth 1 rx = .ok [[-a, b], [-c, d]] := by
  have hfl : ⌊((2 * 1 : Nat) : ℚ) * (1 / 2)⌋₊ = 1 := by
    rw [Nat.floor_eq_iff (by norm_num)]; norm_num
  obtain ⟨out, h1, _, h3⟩ := demodulate_modulate twoSections _ _ (ofdmCorrect 2 1 false) bandwidth 1
    (C56_ofdm 2 1 false (by omega) (by omega)) (by
      intro s hs
      simp only [twoSections, List.mem_cons, List.not_mem_nil, or_false] at hs
      rcases hs with rfl | rfl
      · refine ⟨by simp, ?_⟩
        intro r hr
        simp only [List.mem_singleton] at hr
        subst hr
        exact ⟨fun _ => hfl.le.trans (by decide), Or.inl rfl⟩
      · refine ⟨by simp, ?_⟩
        intro r hr
        simp only [List.mem_singleton] at hr
        subst hr
        exact ⟨fun _ => hfl.le.trans (by decide), Or.inr ⟨rfl, hfl.ge⟩⟩)
    (by intro e he; cases he) [[a, b], [c, d]] rfl (by simp [twoSections])
  refine ⟨out, h1, fun rx hrx => ?_⟩
  have h := h3 rx hrx
  have hs : shiftedGrid twoSections.structure_ (ofdmForward 2 1 false [[a, b], [c, d]]) =
      ofdmForward 2 1 false [[a, b]] ++ (ofdmForward 2 1 false [[c, d]]).map (shiftWord 1) := by
    simp [twoSections, shiftedGrid, Section.numWords, Section.sampleOffset, ofdmForward, shiftWord_zero]
  have hb : ofdmBackward 2 1 false (ofdmForward 2 1 false [[a, b]] ++
      (ofdmForward 2 1 false [[c, d]]).map (shiftWord 1)) = [[a, b], [-c, d]] := by
    rw [show ∀ x y, ofdmBackward 2 1 false (x ++ y) = ofdmBackward 2 1 false x ++ ofdmBackward 2 1 false y
      from fun x y => List.map_append, (C56_ofdm 2 1 false (by omega) (by omega) [[a, b]] (by simp)).2.2,
      ofdm_backward_word 2 1 false (by omega) (by omega) 1 (by omega)]
    have hexp : exp (-(-(2 * Real.pi * I) / 2)) = -1 := by
      rw [show -(-(2 * Real.pi * I) / 2) = Real.pi * I by ring, Complex.exp_pi_mul_I]
    simp [ofFn, List.range_succ, unrollSource, padStart, toFn, hexp]
  rw [h]
  have hc : correctLoop (ofdmCorrect 2 1 false) twoSections.structure_ [[a, b], [-c, d]] =
      [[-a, b], [-c, d]] := by
    have hexp : exp (2 * Real.pi * I * (-1 / 2)) = -1 := by
      rw [show 2 * Real.pi * I * (-1 / 2) = -(Real.pi * I) by ring, Complex.exp_neg,
        Complex.exp_pi_mul_I]
      norm_num
    simp [twoSections, correctLoop, Section.numWords, Section.sampleOffset, ofdmCorrect, ofFn,
      List.range_succ, correctionFreq, unrollSource, padStart, toFn, hexp]
  rw [← hc, ← hb, ← hs]

end Verif.Modem
