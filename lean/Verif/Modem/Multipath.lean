import Verif.Modem.Offset
import Verif.Modem.LinkOfdm
import Verif.Modem.Estimation
import Verif.Channel.State

/-!
# OFDM over multipath channels with ideal channel estimation

What the receiver of `hermespy/modem/waveforms/orthogonal/` makes of frames that passed a multipath channel
(`hermespy/core/channel.py`), and `OFDMIdealChannelEstimation` of
`hermespy/simulation/modem/channel_estimation.py`.
-/

namespace Verif.Modem

open Complex Verif.Dft

/-! ### Model -/

/-- `np.mean` of the samples of a word. -/
noncomputable def sampleMean (row : List ℂ) : ℂ := row.sum / row.length

/-- `_backward_transformation(..., normalize=False)` of `len` channel taps: the transform pads them with zeros
or cuts them to `N * os`. `hermespy/modem/waveforms/orthogonal/ofdm.py` 132-161. -/
noncomputable def csiRow (N os : Nat) (dc : Bool) (len : Nat) (taps : Nat → ℂ) (j : Nat) : ℂ :=
  fft .backward (N * os) (fun d => if d < len then taps d else 0)
    ((unrollSource dc (N * os) (padStart N os + j) + (N * os - N * os / 2)) % (N * os))

/-- `OFDMIdealChannelEstimation.__extract_channel` for one pair of streams; `taps[d]` are the samples of tap
`d` during the section. The samples of pilot sections are not sorted into words, so that the transposition
of the averages (one axis short) raises. `hermespy/simulation/modem/channel_estimation.py` 215-250. -/
noncomputable def extractChannel (N os : Nat) (dc : Bool) (s : Section ℂ) (taps : List (List ℂ)) :
    Except PyErr (List (List ℂ)) :=
  match s with
  | .pilot _ => .error .value
  | _ =>
    match taps.mapM (s.pickSamples N os) with
    | .error e => .error e
    | .ok picked => .ok ((List.range s.numWords).map fun i =>
        ofFn N (csiRow N os dc taps.length fun d => sampleMean ((picked.getD d []).getD i [])))

/-- The section loop of `OFDMIdealChannelEstimation.estimate_channel`.
`hermespy/simulation/modem/channel_estimation.py` 275-290. -/
noncomputable def idealLoop (N : Nat) (bandwidth : ℚ) (os : Nat) (dc : Bool) :
    List (Section ℂ) → List (List ℂ) → Except PyErr (List (List ℂ))
  | [], _ => .ok []
  | s :: ss, taps =>
    let rest := idealLoop N bandwidth os dc ss (taps.map (·.drop (s.numSamples N bandwidth os)))
    if s.numWords > 0 then
      match extractChannel N os dc s (taps.map (·.take (s.numSamples N bandwidth os))) with
      | .error e => .error e
      | .ok csi =>
        match rest with
        | .error e => .error e
        | .ok more => .ok (csi ++ more)
    else rest

/-- `IdealChannelEstimation._csi` and `OFDMIdealChannelEstimation.estimate_channel` for one pair of streams.
`state len` are the taps of the newest channel sample over `len` samples from the start of the drop, if a
sample has been made. Neither `delay`, the start of the frame in the drop, nor the configured reference
position is used. `hermespy/simulation/modem/channel_estimation.py` 84-131, 252-295. -/
noncomputable def Wave.idealEstimate (w : Wave ℂ) (bandwidth : ℚ) (os : Nat) (dc : Bool) {ρ : Type}
    (state : Option (Nat → List (List ℂ))) (_delay : ℚ) (_position : ρ) :
    Except PyErr (List (List ℂ)) :=
  match state with
  | none => .error .runtime
  | some state =>
    let taps := state (w.samplesPerFrame bandwidth os)
    let start := if w.pilotSection.isSome then w.numSubcarriers * os else 0
    idealLoop w.numSubcarriers bandwidth os dc w.structure_ (taps.map (·.drop start))

/-! ### Vocabulary -/

/-- Frequency of subcarrier `j` in multiples of the subcarrier spacing: subcarriers lie around zero; if
direct current is suppressed, those from zero on move up by one (the last one of a spectrum without
oversampling wraps around). -/
def subcarrierFrequency (N os : Nat) (dc : Bool) (j : Nat) : ℤ :=
  let f : ℤ := (os * N / 2 - N / 2 : Nat) + j - (N * os / 2 : Nat)
  if dc = true ∧ 0 ≤ f then
    if f = (N * os - 1 : Nat) - (N * os / 2 : Nat) then 0 else f + 1
  else f

/-- Frequency response of channel taps at frequency `f` of a grid of `n` bins. -/
noncomputable def response (n L : Nat) (h : Nat → ℂ) (f : ℤ) : ℂ :=
  ∑ d ∈ Finset.range (L + 1), h d * exp (-(2 * Real.pi * I * f * d / n))

/-- `rx` is the sum of `T` signals which passed static multipath channels of delays up to `L`. Nothing is said
about the first `L` samples, which may contain echoes of whatever was sent before. -/
def Multipath (T L : Nat) (h : Nat → Nat → ℂ) (x : Nat → List ℂ) (rx : List ℂ) : Prop :=
  ∀ m, L ≤ m → m < rx.length → toFn rx m =
    ∑ t ∈ Finset.range T, ∑ d ∈ Finset.range (L + 1), h t d * toFn (x t) (m - d)

/-- Starts of the words of consecutive resources, without their prefixes. -/
def wordStarts (n : Nat) : List Resource → Nat → List Nat
  | [], _ => []
  | r :: rs, a => (a + writtenPrefix n r) :: wordStarts n rs (a + writtenPrefix n r + n)

/-- Starts of the words of a section. -/
def Section.starts (n : Nat) : Section α → List Nat
  | .symbols reps pattern _ => wordStarts n (Np.tile reps pattern) 0
  | .guard _ _ => []
  | .pilot _ => [0]

/-- Starts of the words of consecutive sections. -/
def frameStarts (N : Nat) (bandwidth : ℚ) (os : Nat) : List (Section α) → List Nat
  | [] => []
  | s :: ss => s.starts (N * os) ++
      (frameStarts N bandwidth os ss).map (s.numSamples N bandwidth os + ·)

/-- The words of a frame as samples: those of the section at the start of the frame come first. -/
def Wave.starts (w : Wave α) (bandwidth : ℚ) (os : Nat) : List Nat :=
  (frameStarts w.numSubcarriers bandwidth os w.structure_).map
    ((if w.pilotSection.isSome then w.numSubcarriers * os else 0) + ·)

/-! ### Reading words -/

/-- `n` samples from `a` on. -/
def window (n : Nat) (signal : List α) (a : Nat) : List α := (signal.drop a).take n

theorem wordStarts_length (n : Nat) (rs : List Resource) (a : Nat) :
    (wordStarts n rs a).length = rs.length := by
  induction rs generalizing a with
  | nil => rfl
  | cons r rs ih => simp [wordStarts, ih]

theorem wordStarts_le (n : Nat) (rs : List Resource) (a : Nat) :
    ∀ b ∈ wordStarts n rs a, a ≤ b ∧ b + n ≤ a + (rs.map fun r => writtenPrefix n r + n).sum := by
  induction rs generalizing a with
  | nil => simp [wordStarts]
  | cons r rs ih =>
    intro b hb
    rw [wordStarts, List.mem_cons] at hb
    rw [List.map_cons, List.sum_cons]
    rcases hb with rfl | hb
    · omega
    · have := ih _ b hb
      omega

theorem pickZip_windows (n : Nat) (signal : List α) (rs : List Resource) (index : Nat)
    (h : index + (rs.map fun r => writtenPrefix n r + n).sum ≤ signal.length) :
    pickZip n 0 signal rs index = .ok ((wordStarts n rs index).map (window n signal)) := by
  induction rs generalizing index with
  | nil => rfl
  | cons r rs ih =>
    rw [List.map_cons, List.sum_cons] at h
    rw [pickZip, wordStarts]
    have hidx : (if prefixSamples n r > 0 ∧ r.prefixType ≠ .none then
        index + prefixSamples n r else index) = index + writtenPrefix n r := by
      rw [writtenPrefix]
      by_cases ht : r.prefixType = .none
      · simp [ht]
      · by_cases h0 : prefixSamples n r > 0
        · rw [if_pos ⟨h0, ht⟩, if_neg ht]
        · rw [if_neg (fun h => h0 h.1), if_neg ht]; omega
    rw [hidx]
    have hslice : pySlice signal (((index + writtenPrefix n r : Nat) : Int) - 0)
        (((index + writtenPrefix n r : Nat) : Int) + (n : Int) - 0) =
        window n signal (index + writtenPrefix n r) := by
      rw [Int.sub_zero, Int.sub_zero, show (((index + writtenPrefix n r : Nat) : Int) + (n : Int)) =
        ((index + writtenPrefix n r + n : Nat) : Int) by omega, pySlice_nat _ _ _ (by omega)]
      unfold window
      congr 1
      omega
    rw [hslice]
    have hw : (window n signal (index + writtenPrefix n r)).length = n := by
      unfold window
      rw [List.length_take, List.length_drop]
      omega
    unfold rowAssign
    rw [if_pos hw]
    simp only []
    rw [ih _ (by omega)]
    rfl

theorem pickSamples_windows (N : Nat) (bandwidth : ℚ) (os : Nat) (s : Section α)
    (h0 : s.sampleOffset = 0) (signal : List α) (hl : signal.length = s.numSamples N bandwidth os) :
    s.pickSamples N os signal = .ok ((s.starts (N * os)).map (window (N * os) signal)) := by
  cases s with
  | guard => rfl
  | pilot e =>
    simp only [Section.numSamples] at hl
    simp only [Section.pickSamples, Section.starts, rowAssign, if_pos hl, List.map_cons, List.map_nil,
      window, List.drop_zero]
    rw [List.take_of_length_le (by omega)]
  | symbols reps pattern off =>
    simp only [Section.sampleOffset] at h0
    subst h0
    simp only [Section.pickSamples, Section.starts]
    rw [pickWords_eq (N * os) reps pattern 0 signal (pattern.length * reps) 0 0 (by ring),
      List.drop_zero]
    apply pickZip_windows
    rw [hl, numSamples_symbols, Nat.zero_add]
    exact written_le _ _

theorem starts_le (N : Nat) (bandwidth : ℚ) (os : Nat) (s : Section α) :
    ∀ a ∈ s.starts (N * os), a + N * os ≤ s.numSamples N bandwidth os := by
  intro a ha
  cases s with
  | guard => simp [Section.starts] at ha
  | pilot =>
    simp only [Section.starts, List.mem_singleton] at ha
    simp [Section.numSamples, ha]
  | symbols reps pattern off =>
    have h1 := (wordStarts_le (N * os) (Np.tile reps pattern) 0 a ha).2
    have h2 := written_le (N * os) (Np.tile reps pattern)
    rw [numSamples_symbols]
    omega

theorem starts_length (n : Nat) (s : Section α) : (s.starts n).length = s.numWords := by
  cases s with
  | guard => rfl
  | pilot => rfl
  | symbols reps pattern off => simp [Section.starts, Section.numWords, wordStarts_length, tile_length]

theorem window_take (n k a : Nat) (signal : List α) (h : a + n ≤ k) :
    window n (signal.take k) a = window n signal a := by
  unfold window
  rw [List.drop_take, List.take_take, Nat.min_eq_left (by omega)]

theorem window_drop (n k a : Nat) (signal : List α) :
    window n (signal.drop k) a = window n signal (k + a) := by
  unfold window
  rw [List.drop_drop]

theorem demodulateLoop_windows (N : Nat) (bandwidth : ℚ) (os : Nat) (ss : List (Section α))
    (h0 : ∀ s ∈ ss, s.sampleOffset = 0) (signal : List α)
    (hl : (ss.map (·.numSamples N bandwidth os)).sum ≤ signal.length) :
    demodulateLoop N bandwidth os ss signal =
      .ok ((frameStarts N bandwidth os ss).map (window (N * os) signal)) := by
  induction ss generalizing signal with
  | nil => rfl
  | cons s ss ih =>
    rw [List.map_cons, List.sum_cons] at hl
    rw [demodulateLoop, pickSamples_windows N bandwidth os s (h0 s (by simp)) _
      (by rw [List.length_take]; omega), ih (fun s hs => h0 s (by simp [hs])) _
      (by rw [List.length_drop]; omega)]
    simp only [frameStarts, List.map_append, List.map_map]
    congr 2
    · apply List.map_congr_left
      intro a ha
      exact window_take _ _ _ _ (starts_le N bandwidth os s a ha)
    · apply List.map_congr_left
      intro a _
      exact window_drop _ _ _ _

/-! ### Words with their prefixes in a frame -/

/-- At `a`, the signal `x` holds the word `row` preceded by its last `L` samples. -/
structure Holds (L n : Nat) (x : List α) (a : Nat) (row : List α) : Prop where
  len : row.length = n
  fits : a + n ≤ x.length
  room : L ≤ a
  word : ∀ k < n, x[a + k]? = row[k]?
  pre : ∀ k, 1 ≤ k → k ≤ L → x[a - k]? = row[n - k]?

theorem Holds.append_right {L n : Nat} {x : List α} {a : Nat} {row : List α} (h : Holds L n x a row)
    (post : List α) : Holds L n (x ++ post) a row where
  len := h.len
  fits := by have := h.fits; rw [List.length_append]; omega
  room := h.room
  word := fun k hk => by
    have := h.fits
    rw [List.getElem?_append_left (by omega), h.word k hk]
  pre := fun k h1 h2 => by
    have := h.fits
    have := h.room
    by_cases hn : 0 < n
    · rw [List.getElem?_append_left (by omega), h.pre k h1 h2]
    · rw [List.getElem?_append_left (by omega), h.pre k h1 h2]

theorem Holds.append_left {L n : Nat} {x : List α} {a : Nat} {row : List α} (h : Holds L n x a row)
    (pre : List α) : Holds L n (pre ++ x) (pre.length + a) row where
  len := h.len
  fits := by have := h.fits; rw [List.length_append]; omega
  room := by have := h.room; omega
  word := fun k hk => by
    rw [List.getElem?_append_right (by omega), show pre.length + a + k - pre.length = a + k by omega,
      h.word k hk]
  pre := fun k h1 h2 => by
    have := h.room
    rw [List.getElem?_append_right (by omega), show pre.length + a - k - pre.length = a - k by omega,
      h.pre k h1 h2]

theorem placeZip_holds [Zero α] (L n : Nat) (rs : List Resource) (rows : List (List α))
    (hl : rs.length = rows.length) (hrow : ∀ row ∈ rows, row.length = n)
    (hok : ∀ r ∈ rs, r.prefixType = .cyclic ∧ L ≤ prefixSamples n r ∧ prefixSamples n r ≤ n) :
    ∃ out, placeZip n rs rows = .ok out ∧
      out.length = (rs.map (fun r => prefixSamples n r + n)).sum ∧
      ∀ pre : List α, List.Forall₂ (Holds L n (pre ++ out)) (wordStarts n rs pre.length) rows := by
  induction rs generalizing rows with
  | nil =>
    have : rows = [] := List.eq_nil_of_length_eq_zero (by simpa using hl.symm)
    subst this
    exact ⟨[], rfl, rfl, fun _ => .nil⟩
  | cons r rs ih =>
    cases rows with
    | nil => simp at hl
    | cons row rows =>
      have hn := hrow row (by simp)
      obtain ⟨hc, hL, hp⟩ := hok r (by simp)
      have hwp : writtenPrefix n r = prefixSamples n r := by
        rw [writtenPrefix, hc, if_neg (by decide)]
      obtain ⟨p, p1, p2, p3⟩ := placePrefix_ok n r row hn (fun _ => hp)
      rw [hwp] at p2
      have p3 := p3 hc
      obtain ⟨rest, q1, q2, q3⟩ := ih rows (by simpa using hl)
        (fun row h => hrow row (by simp [h])) (fun r h => hok r (by simp [h]))
      refine ⟨p ++ row ++ rest, ?_, ?_, ?_⟩
      · simp only [placeZip, p1, q1]
      · simp only [List.length_append, List.map_cons, List.sum_cons, q2, p2, hn]
      · intro pre
        rw [wordStarts, hwp]
        constructor
        · have h1 : Holds L n (p ++ row) p.length row := by
            refine ⟨hn, by rw [List.length_append, hn], by rw [p2]; exact hL, ?_, ?_⟩
            · intro k _
              rw [List.getElem?_append_right (by omega), Nat.add_sub_cancel_left]
            · intro k k1 k2
              rw [List.getElem?_append_left (by omega), p3, List.getElem?_drop]
              congr 1
              rw [List.length_drop, hn]
              omega
          have h2 := (h1.append_right rest).append_left pre
          rw [p2] at h2
          exact h2
        · have := q3 (pre ++ p ++ row)
          rw [show (pre ++ p ++ row).length = pre.length + prefixSamples n r + n by
            simp only [List.length_append, hn, p2]] at this
          rw [show pre ++ (p ++ row ++ rest) = pre ++ p ++ row ++ rest by
            simp only [List.append_assoc]]
          exact this

/-- Symbol sections read at their nominal position whose prefixes are cyclic, at least `L` and at most `n`
samples long; guard sections; but no pilot sections, which have no prefix. -/
def Guarded (L n : Nat) : Section α → Prop
  | .symbols _ pattern offset => offset = 0 ∧
      ∀ r ∈ pattern, r.prefixType = .cyclic ∧ L ≤ prefixSamples n r ∧ prefixSamples n r ≤ n
  | .guard _ _ => True
  | .pilot _ => False

theorem Guarded.offset {L n : Nat} {s : Section α} (h : Guarded L n s) : s.sampleOffset = 0 := by
  cases s with
  | guard => rfl
  | pilot => rfl
  | symbols reps pattern off => exact h.1

theorem section_holds [Zero α] (L N : Nat) (bandwidth : ℚ) (os : Nat) (s : Section α)
    (rows : List (List α)) (hl : rows.length = s.numWords) (hrow : ∀ row ∈ rows, row.length = N * os)
    (hok : Guarded L (N * os) s) :
    ∃ x, s.placeSamples N bandwidth os rows = .ok (x.map some) ∧
      x.length = s.numSamples N bandwidth os ∧
      List.Forall₂ (Holds L (N * os) x) (s.starts (N * os)) rows := by
  cases s with
  | guard reps d =>
    refine ⟨List.replicate ((Section.guard reps d : Section α).numSamples N bandwidth os) 0, ?_, ?_, ?_⟩
    · simp only [Section.placeSamples, List.map_replicate]
    · rw [List.length_replicate]
    · have : rows = [] := List.eq_nil_of_length_eq_zero (by simpa [Section.numWords] using hl)
      subst this
      exact .nil
  | pilot e => exact absurd hok id
  | symbols reps pattern offset =>
    obtain ⟨_, hp⟩ := hok
    have htl : (Np.tile reps pattern).length = rows.length := by rw [tile_length, hl]; rfl
    obtain ⟨out, h1, h2, h3⟩ := placeZip_holds L (N * os) (Np.tile reps pattern) rows htl hrow (by
      intro r hr
      have : r ∈ pattern := by
        simp only [Np.tile, List.mem_flatten, List.mem_replicate] at hr
        obtain ⟨l, ⟨_, rfl⟩, hr⟩ := hr
        exact hr
      exact hp r this)
    rw [← numSamples_symbols (α := α) N bandwidth os reps pattern offset] at h2
    refine ⟨out, ?_, h2, by simpa [Section.starts] using h3 []⟩
    simp only [Section.placeSamples]
    rw [placeWords_eq (N * os) reps pattern 0 rows (by rw [hl]; simp [Section.numWords]),
      List.drop_zero, h1]
    simp only [h2, Nat.sub_self, List.replicate_zero, List.append_nil]

theorem loop_holds [Zero α] (L N : Nat) (bandwidth : ℚ) (os : Nat) (ss : List (Section α))
    (rows : List (List α)) (hl : rows.length = (ss.map (·.numWords)).sum)
    (hrow : ∀ row ∈ rows, row.length = N * os) (hok : ∀ s ∈ ss, Guarded L (N * os) s) :
    ∃ x, modulateLoop N bandwidth os ss rows = .ok (x.map some) ∧
      x.length = (ss.map (·.numSamples N bandwidth os)).sum ∧
      List.Forall₂ (Holds L (N * os) x) (frameStarts N bandwidth os ss) rows := by
  induction ss generalizing rows with
  | nil =>
    have : rows = [] := List.eq_nil_of_length_eq_zero (by simpa using hl)
    subst this
    exact ⟨[], rfl, rfl, .nil⟩
  | cons s ss ih =>
    rw [List.map_cons, List.sum_cons] at hl
    obtain ⟨o1, a1, a2, a3⟩ := section_holds L N bandwidth os s (rows.take s.numWords)
      (by rw [List.length_take]; omega) (fun r h => hrow r (List.mem_of_mem_take h))
      (hok s (by simp))
    obtain ⟨o2, b1, b2, b3⟩ := ih (rows.drop s.numWords) (by rw [List.length_drop]; omega)
      (fun r h => hrow r (List.mem_of_mem_drop h)) (fun s h => hok s (by simp [h]))
    refine ⟨o1 ++ o2, by simp only [modulateLoop, a1, b1, List.map_append], by simp [a2, b2], ?_⟩
    rw [frameStarts, ← List.take_append_drop s.numWords rows]
    refine List.rel_append ?_ ?_
    · exact a3.imp fun a row h => h.append_right o2
    · rw [List.forall₂_map_left_iff]
      refine b3.imp fun a row h => ?_
      rw [← a2]
      exact h.append_left o1

theorem mapM_ok {β γ : Type} (f : β → Except PyErr γ) (h : β → γ) (l : List β)
    (hf : ∀ b ∈ l, f b = .ok (h b)) : l.mapM f = .ok (l.map h) := by
  induction l with
  | nil => rfl
  | cons b l ih =>
    rw [List.mapM_cons, hf b (by simp), ih (fun c hc => hf c (by simp [hc]))]
    rfl

theorem csiRow_congr (N os : Nat) (dc : Bool) (len : Nat) (f g : Nat → ℂ) (j : Nat)
    (h : ∀ d < len, f d = g d) : csiRow N os dc len f j = csiRow N os dc len g j := by
  unfold csiRow
  apply fft_congr
  intro d _
  by_cases hd : d < len
  · rw [if_pos hd, if_pos hd, h d hd]
  · rw [if_neg hd, if_neg hd]

theorem getD_map_take (taps : List (List ℂ)) (f : List ℂ → List ℂ) (hf : f [] = []) (d : Nat) :
    (taps.map f).getD d [] = f (taps.getD d []) := by
  rw [List.getD, List.getD, List.getElem?_map]
  cases taps[d]? with
  | none => simp [hf]
  | some l => rfl

theorem idealLoop_windows (N : Nat) (bandwidth : ℚ) (os : Nat) (dc : Bool) (ss : List (Section ℂ))
    (hss : ∀ s ∈ ss, s.sampleOffset = 0 ∧ ∀ e, s ≠ .pilot e) (taps : List (List ℂ))
    (hl : ∀ l ∈ taps, (ss.map (·.numSamples N bandwidth os)).sum ≤ l.length) :
    idealLoop N bandwidth os dc ss taps = .ok ((frameStarts N bandwidth os ss).map fun a =>
      ofFn N (csiRow N os dc taps.length fun d => sampleMean (window (N * os) (taps.getD d []) a))) := by
  induction ss generalizing taps with
  | nil => rfl
  | cons s ss ih =>
    simp only [List.map_cons, List.sum_cons] at hl
    obtain ⟨h0, hnp⟩ := hss s (by simp)
    set k := s.numSamples N bandwidth os with hk
    have hrest := ih (fun s hs => hss s (by simp [hs])) (taps.map (·.drop k)) (by
      intro l hl'
      obtain ⟨l', hm, rfl⟩ := List.mem_map.1 hl'
      have := hl l' hm
      rw [List.length_drop]
      omega)
    have hmore : (frameStarts N bandwidth os ss).map (fun a =>
        ofFn N (csiRow N os dc (taps.map (·.drop k)).length fun d =>
          sampleMean (window (N * os) ((taps.map (·.drop k)).getD d []) a))) =
        ((frameStarts N bandwidth os ss).map (k + ·)).map (fun a =>
          ofFn N (csiRow N os dc taps.length fun d => sampleMean (window (N * os) (taps.getD d []) a))) := by
      rw [List.map_map]
      apply List.map_congr_left
      intro a _
      simp only [List.length_map, Function.comp_apply]
      congr 1
      funext j
      apply csiRow_congr
      intro d _
      rw [getD_map_take _ _ (by simp), window_drop]
    rw [hmore] at hrest
    rw [idealLoop]
    rw [← hk, hrest]
    by_cases hw : s.numWords > 0
    · rw [if_pos hw]
      have hex : extractChannel N os dc s (taps.map (·.take k)) =
          .ok ((s.starts (N * os)).map fun a =>
            ofFn N (csiRow N os dc taps.length fun d => sampleMean (window (N * os) (taps.getD d []) a))) := by
        have hpick : (taps.map (·.take k)).mapM (s.pickSamples N os) =
            .ok ((taps.map (·.take k)).map fun l => (s.starts (N * os)).map (window (N * os) l)) := by
          apply mapM_ok
          intro l hl'
          obtain ⟨l', hm, rfl⟩ := List.mem_map.1 hl'
          have := hl l' hm
          exact pickSamples_windows N bandwidth os s h0 _ (by rw [List.length_take]; omega)
        have hmain : (List.range s.numWords).map (fun i => ofFn N (csiRow N os dc
            (taps.map (·.take k)).length fun d => sampleMean (((((taps.map (·.take k)).map fun l =>
              (s.starts (N * os)).map (window (N * os) l)).getD d []).getD i [])))) =
            (s.starts (N * os)).map fun a => ofFn N (csiRow N os dc taps.length fun d =>
              sampleMean (window (N * os) (taps.getD d []) a)) := by
          apply List.ext_getElem
          · simp [starts_length]
          · intro i h1 h2
            simp only [List.length_map, List.length_range] at h1 h2
            simp only [List.getElem_map, List.getElem_range, List.length_map]
            congr 1
            funext j
            apply csiRow_congr
            intro d hd
            congr 1
            have hd' : d < taps.length := hd
            have hi : i < (s.starts (N * os)).length := by simpa using h2
            simp only [List.getD, List.getElem?_map, List.getElem?_eq_getElem hd', Option.map_some,
              Option.getD_some, List.getElem?_eq_getElem hi]
            exact window_take _ _ _ _ (starts_le N bandwidth os s _ (List.getElem_mem hi))
        unfold extractChannel
        cases s with
        | pilot e => exact absurd rfl (hnp e)
        | guard a b =>
          simp only
          rw [hpick]
          simp only
          rw [hmain]
        | symbols a b c =>
          simp only
          rw [hpick]
          simp only
          rw [hmain]
      rw [hex]
      simp only [frameStarts, List.map_append, ← hk]
    · rw [if_neg hw]
      have : s.starts (N * os) = [] := List.eq_nil_of_length_eq_zero (by rw [starts_length]; omega)
      simp only [frameStarts, this, List.nil_append, ← hk]

/-! ### Cyclic convolution -/

theorem toFn_of_getElem? (x y : List ℂ) (i j : Nat) (h : x[i]? = y[j]?) : toFn x i = toFn y j := by
  unfold toFn
  rw [h]

theorem window_multipath (T L n : Nat) (hL : L ≤ n) (h : Nat → Nat → ℂ) (x : Nat → List ℂ)
    (rx : List ℂ) (a : Nat) (row : Nat → List ℂ) (hx : ∀ t < T, Holds L n (x t) a (row t))
    (ha : L ≤ a) (hr : a + n ≤ rx.length) (hm : Multipath T L h x rx) :
    window n rx a = ofFn n fun i => ∑ t ∈ Finset.range T, ∑ d ∈ Finset.range (L + 1),
      h t d * toFn (row t) ((i + (n - d)) % n) := by
  have hlen : (window n rx a).length = n := by
    unfold window
    rw [List.length_take, List.length_drop]
    omega
  rw [← ofFn_toFn (window n rx a), hlen]
  apply ofFn_congr
  intro i hi
  have e1 : toFn (window n rx a) i = toFn rx (a + i) := by
    apply toFn_of_getElem?
    unfold window
    rw [List.getElem?_take_of_lt hi, List.getElem?_drop]
  rw [e1, hm (a + i) (by omega) (by omega)]
  refine Finset.sum_congr rfl fun t ht => Finset.sum_congr rfl fun d hd => ?_
  have ht' := Finset.mem_range.1 ht
  have hd' := Finset.mem_range.1 hd
  congr 1
  apply toFn_of_getElem?
  by_cases hdi : d ≤ i
  · rw [show a + i - d = a + (i - d) by omega, (hx t ht').word (i - d) (by omega)]
    congr 1
    rw [show i + (n - d) = (i - d) + n by omega, Nat.add_mod_right, Nat.mod_eq_of_lt (by omega)]
  · rw [show a + i - d = a - (d - i) by omega, (hx t ht').pre (d - i) (by omega) (by omega)]
    congr 1
    rw [Nat.mod_eq_of_lt (by omega)]
    omega

theorem frequency_eq (N os : Nat) (dc : Bool) (hos : 0 < os) (j : Nat) (hj : j < N) :
    ((subcarrierFrequency N os dc j : ℤ) : ℂ) =
      ((unrollSource dc (N * os) (padStart N os + j) : Nat) : ℂ) - ((N * os / 2 : Nat) : ℂ) := by
  have h : subcarrierFrequency N os dc j =
      (unrollSource dc (N * os) (padStart N os + j) : ℤ) - (N * os / 2 : Nat) := by
    have hlt := padStart_le N os hos j hj
    unfold subcarrierFrequency unrollSource
    unfold padStart at hlt ⊢
    simp only
    generalize os * N / 2 - N / 2 = p at *
    generalize N * os = n at *
    cases dc with
    | false => simp
    | true =>
      simp only [true_and]
      split_ifs <;> omega
  rw [h, Int.cast_sub, Int.cast_natCast, Int.cast_natCast]

theorem backward_sum {ι : Type} (N os : Nat) (dc : Bool) (s : Finset ι) (c : ι → ℂ)
    (y : ι → Nat → ℂ) (j : Nat) :
    ofdmBackwardRow N os dc (fun i => ∑ k ∈ s, c k * y k i) j =
      ∑ k ∈ s, c k * ofdmBackwardRow N os dc (y k) j := by
  unfold ofdmBackwardRow fft
  simp only [Finset.sum_mul, Finset.mul_sum]
  rw [Finset.sum_comm]
  refine Finset.sum_congr rfl fun k _ => Finset.sum_congr rfl fun i _ => ?_
  ring

/-- A word that passed a multipath channel cyclically is weighted by its frequency response. -/
theorem backward_multipath (N os : Nat) (dc : Bool) (hN : 0 < N) (hos : 0 < os) (T L : Nat)
    (hL : L ≤ N * os) (h : Nat → Nat → ℂ) (x : Nat → Nat → ℂ) (j : Nat) (hj : j < N) :
    ofdmBackwardRow N os dc (fun i => ∑ t ∈ Finset.range T, ∑ d ∈ Finset.range (L + 1),
      h t d * ofdmForwardRow N os dc (x t) ((i + (N * os - d)) % (N * os))) j =
      ∑ t ∈ Finset.range T, response (N * os) L (h t) (subcarrierFrequency N os dc j) * x t j := by
  have e1 : (fun i => ∑ t ∈ Finset.range T, ∑ d ∈ Finset.range (L + 1),
      h t d * ofdmForwardRow N os dc (x t) ((i + (N * os - d)) % (N * os))) =
      fun i => ∑ t ∈ Finset.range T, 1 * ∑ d ∈ Finset.range (L + 1),
        h t d * ofdmForwardRow N os dc (x t) ((i + (N * os - d)) % (N * os)) := by
    funext i
    simp
  rw [e1, backward_sum N os dc (Finset.range T) (fun _ => 1) (fun t i => ∑ d ∈ Finset.range (L + 1),
    h t d * ofdmForwardRow N os dc (x t) ((i + (N * os - d)) % (N * os)))]
  refine Finset.sum_congr rfl fun t _ => ?_
  rw [one_mul, backward_sum N os dc (Finset.range (L + 1)) (fun d => h t d)
    (fun d i => ofdmForwardRow N os dc (x t) ((i + (N * os - d)) % (N * os)))]
  unfold response
  rw [Finset.sum_mul]
  refine Finset.sum_congr rfl fun d hd => ?_
  have hd' := Finset.mem_range.1 hd
  rw [ofdm_shift_row N os dc hN hos d (by omega) (x t) j hj, frequency_eq N os dc hos j hj]
  ring

/-! ### Frames -/

theorem Wave.samplesPerFrame_eq (w : Wave α) (bandwidth : ℚ) (os : Nat) :
    w.samplesPerFrame bandwidth os =
      (w.structure_.map (·.numSamples w.numSubcarriers bandwidth os)).sum +
        (if w.pilotSection.isSome then w.numSubcarriers * os else 0) := by
  rw [Wave.samplesPerFrame, foldl_add_acc, Nat.zero_add]

theorem pilotSamples_length (w : Wave ℂ) (os : Nat) (dc : Bool) :
    (w.pilotSamples (ofdmForward w.numSubcarriers os dc)).length =
      if w.pilotSection.isSome then w.numSubcarriers * os else 0 := by
  unfold Wave.pilotSamples
  cases w.pilotSection with
  | none => rfl
  | some e => simp [ofdmForward, ofFn_length]

theorem frame_holds (L : Nat) (w : Wave ℂ) (dc : Bool) (bandwidth : ℚ) (os : Nat)
    (hg : ∀ s ∈ w.structure_, Guarded L (w.numSubcarriers * os) s) (grid : List (List ℂ))
    (hl : grid.length = w.wordsPerFrame) :
    ∃ x, w.modulate (ofdmForward w.numSubcarriers os dc) bandwidth os grid = .ok (x.map some) ∧
      x.length = w.samplesPerFrame bandwidth os ∧
      List.Forall₂ (Holds L (w.numSubcarriers * os) x) (w.starts bandwidth os)
        (ofdmForward w.numSubcarriers os dc grid) := by
  obtain ⟨y, h1, h2, h3⟩ := loop_holds L w.numSubcarriers bandwidth os w.structure_
    (ofdmForward w.numSubcarriers os dc grid)
    (by rw [ofdmForward, List.length_map, hl, w.sums.2.2])
    (by
      intro row hrow
      obtain ⟨r, _, rfl⟩ := List.mem_map.1 hrow
      exact ofFn_length _ _) hg
  refine ⟨w.pilotSamples (ofdmForward w.numSubcarriers os dc) ++ y, ?_, ?_, ?_⟩
  · simp only [Wave.modulate, h1, List.map_append]
  · rw [List.length_append, pilotSamples_length, h2, w.samplesPerFrame_eq, Nat.add_comm]
  · unfold Wave.starts
    rw [List.forall₂_map_left_iff]
    refine h3.imp fun a row h => ?_
    rw [← pilotSamples_length w os dc]
    exact h.append_left _

theorem demodulate_windows (w : Wave ℂ) (backward : List (List ℂ) → List (List ℂ))
    (correct : List (List ℂ) → Int → List (List ℂ)) (bandwidth : ℚ) (os : Nat)
    (h0 : ∀ s ∈ w.structure_, s.sampleOffset = 0) (rx : List ℂ)
    (hl : w.samplesPerFrame bandwidth os ≤ rx.length) :
    w.demodulate backward correct bandwidth os rx =
      .ok (backward ((w.starts bandwidth os).map (window (w.numSubcarriers * os) rx))) := by
  rw [w.samplesPerFrame_eq] at hl
  rw [Wave.demodulate]
  rw [demodulateLoop_windows _ _ _ _ h0 _ (by rw [List.length_drop]; omega)]
  simp only
  rw [correctLoop_zero _ _ h0, Wave.starts, List.map_map]
  congr 3
  funext a
  exact window_drop _ _ _ _

theorem Wave.starts_length (w : Wave ℂ) (bandwidth : ℚ) (os : Nat) :
    (w.starts bandwidth os).length = w.wordsPerFrame := by
  rw [Wave.starts, List.length_map, w.sums.2.2]
  generalize w.structure_ = ss
  induction ss with
  | nil => rfl
  | cons s ss ih =>
    rw [frameStarts, List.length_append, List.length_map, ih, Modem.starts_length, List.map_cons,
      List.sum_cons]

/-- C73, cyclic prefix: if no delay of the channels exceeds the cyclic prefixes, then words neither
disturb each other nor themselves. Every cell of the demodulated grid is the sum over the transmitted streams
of the transmitted cell weighted by the frequency response of the channel at the frequency of its subcarrier,
for every subcarrier mapping, oversampling, frame structure, and whatever was sent before the frame. -/
theorem C73_prefix (w : Wave ℂ) (dc : Bool) (bandwidth : ℚ) (os : Nat) (hN : 0 < w.numSubcarriers)
    (hos : 0 < os) (correct : List (List ℂ) → Int → List (List ℂ)) (T L : Nat)
    (hL : L ≤ w.numSubcarriers * os)
    (hg : ∀ s ∈ w.structure_, Guarded L (w.numSubcarriers * os) s) (grids : Nat → List (List ℂ))
    (hl : ∀ t < T, (grids t).length = w.wordsPerFrame) :
    ∃ x : Nat → List ℂ,
      (∀ t < T, w.modulate (ofdmForward w.numSubcarriers os dc) bandwidth os (grids t) =
          .ok ((x t).map some) ∧ (x t).length = w.samplesPerFrame bandwidth os) ∧
      ∀ h rx, w.samplesPerFrame bandwidth os ≤ rx.length → Multipath T L h x rx →
        w.demodulate (ofdmBackward w.numSubcarriers os dc) correct bandwidth os rx =
          .ok (ofFn2 w.wordsPerFrame w.numSubcarriers fun i j => ∑ t ∈ Finset.range T,
            response (w.numSubcarriers * os) L (h t) (subcarrierFrequency w.numSubcarriers os dc j) *
              toFn2 (grids t) i j) := by
  have hx := fun t (ht : t < T) => frame_holds L w dc bandwidth os hg (grids t) (hl t ht)
  choose x' h1 h2 h3 using hx
  have hxe : ∀ t (ht : t < T), (fun t => if h : t < T then x' t h else []) t = x' t ht := by
    intro t ht
    simp [ht]
  generalize (fun t => if h : t < T then x' t h else []) = x at hxe
  refine ⟨x, fun t ht => ?_, ?_⟩
  · rw [hxe t ht]
    exact ⟨h1 t ht, h2 t ht⟩
  · intro h rx hrx hm
    rw [demodulate_windows w _ correct bandwidth os (fun s hs => (hg s hs).offset) rx hrx]
    congr 1
    apply List.ext_getElem
    · simp [ofdmBackward, ofFn2, w.starts_length]
    intro i a1 a2
    have hi : i < w.wordsPerFrame := by simpa [ofFn2] using a2
    have his : i < (w.starts bandwidth os).length := by rw [w.starts_length]; exact hi
    simp only [ofdmBackward, List.getElem_map, ofFn2, List.getElem_range]
    have hh : ∀ t < T, Holds L (w.numSubcarriers * os) (x t) ((w.starts bandwidth os)[i])
        (ofFn (w.numSubcarriers * os) (ofdmForwardRow w.numSubcarriers os dc (toFn2 (grids t) i))) := by
      intro t ht
      rw [hxe t ht]
      have := (List.forall₂_iff_get.1 (h3 t ht)).2 i his (by simp [ofdmForward, hl t ht, hi])
      have hgi : i < (grids t).length := by rw [hl t ht]; exact hi
      rw [show toFn2 (grids t) i = toFn (grids t)[i] by funext k; simp [toFn2, hgi]]
      simpa [ofdmForward] using this
    by_cases hT : T = 0
    · subst hT
      have hwin : window (w.numSubcarriers * os) rx ((w.starts bandwidth os)[i]) =
          ofFn (w.numSubcarriers * os) fun _ => 0 := by
        obtain ⟨y, _, y2, y3⟩ := frame_holds L w dc bandwidth os hg
          (List.replicate w.wordsPerFrame []) (by simp)
        have hy := (List.forall₂_iff_get.1 y3).2 i his (by simp [ofdmForward, hi])
        have := window_multipath 0 L (w.numSubcarriers * os) hL h x rx
          ((w.starts bandwidth os)[i]) (fun _ => []) (by simp) hy.room
          (by have := hy.fits; simp only [List.get_eq_getElem] at this; omega) hm
        simpa using this
      rw [hwin]
      apply ofFn_congr
      intro j _
      rw [Finset.range_zero, Finset.sum_empty]
      unfold ofdmBackwardRow
      rw [fft_congr _ _ _ (fun _ => 0) _ (fun k hk => toFn_ofFn _ _ k hk)]
      simp [fft]
    · have h0 := hh 0 (by omega)
      have hfit := h0.fits
      rw [hxe 0 (by omega), h2 0 (by omega)] at hfit
      rw [window_multipath T L (w.numSubcarriers * os) hL h x rx _ _ hh h0.room (by omega) hm]
      apply ofFn_congr
      intro j hj
      rw [← backward_multipath w.numSubcarriers os dc hN hos T L hL h (fun t => toFn2 (grids t) i) j hj]
      unfold ofdmBackwardRow
      congr 1
      apply fft_congr
      intro k hk
      rw [toFn_ofFn _ _ k hk]
      refine Finset.sum_congr rfl fun t _ => Finset.sum_congr rfl fun d _ => ?_
      rw [toFn_ofFn _ _ _ (Nat.mod_lt _ (by omega))]

/-! ### Ideal estimation -/

/-- C73, averages: for every frame structure without pilot sections and offsets, the estimate of a word is the
transform of the channel's taps averaged over exactly the samples from which the receiver demodulates the
word. -/
theorem C73_average (w : Wave ℂ) (dc : Bool) (bandwidth : ℚ) (os : Nat)
    (hs : ∀ s ∈ w.structure_, s.sampleOffset = 0 ∧ ∀ e, s ≠ .pilot e)
    (state : Nat → List (List ℂ)) (hstate : ∀ len, ∀ l ∈ state len, l.length = len) (delay : ℚ)
    {ρ : Type} (position : ρ) :
    (∀ backward correct rx, w.samplesPerFrame bandwidth os ≤ rx.length →
      w.demodulate backward correct bandwidth os rx =
        .ok (backward ((w.starts bandwidth os).map (window (w.numSubcarriers * os) rx)))) ∧
    w.idealEstimate bandwidth os dc (some state) delay position =
      .ok ((w.starts bandwidth os).map fun a => ofFn w.numSubcarriers
        (csiRow w.numSubcarriers os dc (state (w.samplesPerFrame bandwidth os)).length fun d =>
          sampleMean (window (w.numSubcarriers * os) ((state (w.samplesPerFrame bandwidth os)).getD d []) a))) := by
  refine ⟨fun backward correct rx hrx =>
    demodulate_windows w backward correct bandwidth os (fun s h => (hs s h).1) rx hrx, ?_⟩
  rw [Wave.idealEstimate]
  rw [idealLoop_windows _ _ _ _ _ hs _ (by
    intro l hl
    obtain ⟨l', hm, rfl⟩ := List.mem_map.1 hl
    rw [List.length_drop, hstate _ l' hm, w.samplesPerFrame_eq]
    omega)]
  rw [Wave.starts, List.map_map]
  congr 1
  apply List.map_congr_left
  intro a _
  simp only [List.length_map, Function.comp_apply]
  congr 1
  funext j
  apply csiRow_congr
  intro d _
  rw [getD_map_take _ _ (by simp), window_drop]

theorem csiRow_response (N os : Nat) (dc : Bool) (hos : 0 < os) (L len : Nat) (h : Nat → ℂ)
    (hL : L < N * os) (hlen : L < len) (h0 : ∀ d, L < d → h d = 0) (j : Nat) (hj : j < N) :
    csiRow N os dc len h j = response (N * os) L h (subcarrierFrequency N os dc j) := by
  have hn : (N * os : Nat) ≠ 0 := by omega
  have hnc : ((N * os : Nat) : ℂ) ≠ 0 := by exact_mod_cast hn
  have hult := unroll_lt dc _ _ (padStart_le N os hos j hj)
  unfold csiRow response fft
  simp only [Norm.fwd, one_mul]
  have hsub : Finset.range (L + 1) ⊆ Finset.range (N * os) := by
    intro d hd
    rw [Finset.mem_range] at hd ⊢
    omega
  rw [← Finset.sum_subset hsub (by
    intro d hd hd'
    rw [Finset.mem_range] at hd hd'
    rw [h0 d (by omega)]
    simp)]
  refine Finset.sum_congr rfl fun d hd => ?_
  rw [Finset.mem_range] at hd
  rw [if_pos (by omega), frequency_eq N os dc hos j hj]
  congr 1
  set n := N * os with hndef
  set u := unrollSource dc n (padStart N os + j) with hu
  have hd := Nat.mod_add_div (u + (n - n / 2)) n
  set a := (u + (n - n / 2)) % n
  set q := (u + (n - n / 2)) / n
  have hc : (a : ℂ) = u - ((n / 2 : Nat) : ℂ) + n * (1 - q) := by
    have : a + n * q + n / 2 = u + n := by omega
    have h : ((a + n * q + n / 2 : Nat) : ℂ) = ((u + n : Nat) : ℂ) := by rw [this]
    push_cast at h
    linear_combination h
  rw [← exp_periodic (-(2 * Real.pi * I * ((u : ℂ) - ((n / 2 : Nat) : ℂ)) * d / n))
    ((d : ℤ) * ((q : ℤ) - 1))]
  congr 1
  rw [hc]
  push_cast
  field_simp
  ring

theorem frameStarts_le (N : Nat) (bandwidth : ℚ) (os : Nat) (ss : List (Section α)) :
    ∀ a ∈ frameStarts N bandwidth os ss,
      a + N * os ≤ (ss.map (·.numSamples N bandwidth os)).sum := by
  induction ss with
  | nil => simp [frameStarts]
  | cons s ss ih =>
    intro a ha
    rw [frameStarts, List.mem_append, List.mem_map] at ha
    rw [List.map_cons, List.sum_cons]
    rcases ha with ha | ⟨b, hb, rfl⟩
    · have := starts_le N bandwidth os s a ha
      omega
    · have := ih b hb
      omega

theorem Wave.starts_fit (w : Wave ℂ) (bandwidth : ℚ) (os : Nat) :
    ∀ a ∈ w.starts bandwidth os, a + w.numSubcarriers * os ≤ w.samplesPerFrame bandwidth os := by
  intro a ha
  obtain ⟨b, hb, rfl⟩ := List.mem_map.1 ha
  have := frameStarts_le _ _ _ _ b hb
  rw [w.samplesPerFrame_eq]
  omega

theorem sampleMean_replicate (n : Nat) (hn : 0 < n) (c : ℂ) : sampleMean (List.replicate n c) = c := by
  have : (n : ℂ) ≠ 0 := by exact_mod_cast hn.ne'
  unfold sampleMean
  rw [List.sum_replicate, List.length_replicate, nsmul_eq_mul]
  field_simp

/-- C73, ideal estimation: for channels that do not change during the frame and last less than a word, the
estimate is the frequency response of the channel at the frequency of every subcarrier. -/
theorem C73_ideal (w : Wave ℂ) (dc : Bool) (bandwidth : ℚ) (os : Nat) (hos : 0 < os)
    (hs : ∀ s ∈ w.structure_, s.sampleOffset = 0 ∧ ∀ e, s ≠ .pilot e) (L K : Nat)
    (hL : L < w.numSubcarriers * os) (hK : L < K) (h : Nat → ℂ) (h0 : ∀ d, L < d → h d = 0)
    (state : Nat → List (List ℂ))
    (hstate : ∀ len, state len = (List.range K).map fun d => List.replicate len (h d)) (delay : ℚ)
    {ρ : Type} (position : ρ) :
    w.idealEstimate bandwidth os dc (some state) delay position =
      .ok (ofFn2 w.wordsPerFrame w.numSubcarriers fun _ j =>
        response (w.numSubcarriers * os) L h (subcarrierFrequency w.numSubcarriers os dc j)) := by
  rw [(C73_average w dc bandwidth os hs state (by
    intro len l hl
    rw [hstate] at hl
    obtain ⟨d, _, rfl⟩ := List.mem_map.1 hl
    exact List.length_replicate) delay position).2, hstate]
  congr 1
  apply List.ext_getElem
  · simp [ofFn2, w.starts_length]
  intro i a1 a2
  have his : i < (w.starts bandwidth os).length := by simpa using a1
  simp only [List.getElem_map, ofFn2]
  apply ofFn_congr
  intro j hj
  simp only [List.length_map, List.length_range]
  rw [← csiRow_response w.numSubcarriers os dc hos L K h hL hK h0 j hj]
  apply csiRow_congr
  intro d hd
  have hfit := w.starts_fit bandwidth os _ (List.getElem_mem his)
  have : ((List.range K).map fun d => List.replicate (w.samplesPerFrame bandwidth os) (h d)).getD d [] =
      List.replicate (w.samplesPerFrame bandwidth os) (h d) := by
    simp [List.getD, hd]
  rw [this, window, List.drop_replicate, List.take_replicate, Nat.min_eq_left (by omega),
    sampleMean_replicate _ (by omega)]

/-- C73, link: a frame sent over a single static channel whose delays do not exceed the prefixes, and whose
frequency response vanishes at no subcarrier, is demodulated, estimated, picked and equalised by division to
exactly the transmitted data. -/
theorem C73_link (w : Wave ℂ) (hfit : w.Fits) (dc : Bool) (bandwidth : ℚ) (os : Nat)
    (hN : 0 < w.numSubcarriers) (hos : 0 < os) (correct : List (List ℂ) → Int → List (List ℂ)) (L K : Nat)
    (hL : L < w.numSubcarriers * os) (hK : L < K)
    (hg : ∀ s ∈ w.structure_, Guarded L (w.numSubcarriers * os) s) (data references : List ℂ)
    (hd : data.length = w.numDataSymbols) (hr : references.length = w.referencesPerFrame) :
    ∃ grid x, w.place data references = .ok grid ∧
      w.modulate (ofdmForward w.numSubcarriers os dc) bandwidth os grid = .ok (x.map some) ∧
      ∀ (h : Nat → ℂ) (rx : List ℂ) (state : Nat → List (List ℂ)) (delay : ℚ) (position : Nat),
        w.samplesPerFrame bandwidth os ≤ rx.length →
        Multipath 1 L (fun _ => h) (fun _ => x) rx → (∀ d, L < d → h d = 0) →
        (∀ len, state len = (List.range K).map fun d => List.replicate len (h d)) →
        (∀ j < w.numSubcarriers, response (w.numSubcarriers * os) L h
          (subcarrierFrequency w.numSubcarriers os dc j) ≠ 0) →
        ∃ raw est picked states,
          w.demodulate (ofdmBackward w.numSubcarriers os dc) correct bandwidth os rx = .ok raw ∧
          w.idealEstimate bandwidth os dc (some state) delay position = .ok est ∧
          w.pickStated [raw] [[est]] = .ok ([picked], [[states]]) ∧
          List.zipWith (· / ·) picked states = data := by
  obtain ⟨grid, p1, p2, p3, p4, _⟩ := C55_place w hfit data references hd hr
  obtain ⟨x, x1, x2⟩ := C73_prefix w dc bandwidth os hN hos correct 1 L hL.le hg (fun _ => grid)
    (fun _ _ => p2)
  refine ⟨grid, x 0, p1, (x1 0 (by omega)).1, ?_⟩
  intro h rx state delay position hrx hm h0 hstate hne
  have hm' : Multipath 1 L (fun _ => h) x rx := by
    intro m a b
    rw [hm m a b, Finset.sum_range_one, Finset.sum_range_one]
  have e1 := x2 (fun _ => h) rx hrx hm'
  simp only [Finset.sum_range_one] at e1
  have e2 := C73_ideal w dc bandwidth os hos (fun s hs => ⟨(hg s hs).offset, by
    intro e he
    have := hg s hs
    rw [he] at this
    exact this⟩) L K hL hK h h0 state hstate delay position
  have hshape : ∀ f : Nat → Nat → ℂ, (ofFn2 w.wordsPerFrame w.numSubcarriers f).length = w.wordsPerFrame ∧
      ∀ row ∈ ofFn2 w.wordsPerFrame w.numSubcarriers f, row.length = w.numSubcarriers := by
    intro f
    refine ⟨by simp [ofFn2], ?_⟩
    intro row hrow
    obtain ⟨i, _, rfl⟩ := List.mem_map.1 hrow
    exact ofFn_length _ _
  refine ⟨_, _, cellsOfGrid .data w.types (ofFn2 w.wordsPerFrame w.numSubcarriers fun i j =>
      response (w.numSubcarriers * os) L h (subcarrierFrequency w.numSubcarriers os dc j) *
        toFn2 grid i j),
    cellsOfGrid .data w.types (ofFn2 w.wordsPerFrame w.numSubcarriers fun _ j =>
      response (w.numSubcarriers * os) L h (subcarrierFrequency w.numSubcarriers os dc j)),
    e1, e2, ?_, ?_⟩
  · have hpick : ∀ f g : Nat → Nat → ℂ,
        w.pickStated [ofFn2 w.wordsPerFrame w.numSubcarriers f] [[ofFn2 w.wordsPerFrame w.numSubcarriers g]] =
          .ok ([cellsOfGrid .data w.types (ofFn2 w.wordsPerFrame w.numSubcarriers f)],
            [[cellsOfGrid .data w.types (ofFn2 w.wordsPerFrame w.numSubcarriers g)]]) := by
      intro f g
      have := C55_stated w hfit [ofFn2 w.wordsPerFrame w.numSubcarriers f]
        [[ofFn2 w.wordsPerFrame w.numSubcarriers g]]
        (by intro g' hg'; rw [List.mem_singleton.1 hg']; exact hshape f)
        (by
          intro rx hrx g' hg'
          rw [List.mem_singleton.1 hrx] at hg'
          rw [List.mem_singleton.1 hg']
          exact hshape g)
      simpa using this
    exact hpick _ _
  · rw [cellsOfGrid_zipWith .data w.types _ _ (by
      simp only [ofFn2, List.map_map]
      apply List.map_congr_left
      intro i _
      simp only [Function.comp_apply, ofFn_length])]
    have : List.zipWith (List.zipWith (· / ·))
        (ofFn2 w.wordsPerFrame w.numSubcarriers fun i j =>
          response (w.numSubcarriers * os) L h (subcarrierFrequency w.numSubcarriers os dc j) *
            toFn2 grid i j)
        (ofFn2 w.wordsPerFrame w.numSubcarriers fun _ j =>
          response (w.numSubcarriers * os) L h (subcarrierFrequency w.numSubcarriers os dc j)) = grid := by
      apply List.ext_getElem
      · simp [ofFn2, p2]
      intro i a1 a2
      have hrow := p3 _ (List.getElem_mem a2)
      apply List.ext_getElem
      · simp [ofFn2, ofFn_length, hrow]
      intro j b1 b2
      have hj : j < w.numSubcarriers := by omega
      simp only [List.getElem_zipWith, ofFn2, List.getElem_map, List.getElem_range, ofFn]
      rw [mul_div_cancel_left₀ _ (hne j hj)]
      simp [toFn2, toFn, a2, b2]
    rw [this, p4]

/-- C73, channel states: a signal propagated over a static channel state (C69) is received over multipath
channels in the sense of `C73_prefix`, on every receive stream. -/
theorem C73_channel (c : Verif.Channel.State.Csi ℂ) (x : Nat → List ℂ) (len : Nat)
    (hx : ∀ t < c.tx, (x t).length = len) (hs : len ≤ c.smp ∨ c.smp = 1) (hk : 0 < c.inf)
    (hstatic : ∀ r t s k, c.st r t s k = c.st r t 0 k) :
    ∃ y, Verif.Channel.State.propagate c ⟨c.tx, len, fun t => toFn (x t)⟩ = .ok y ∧ y.streams = c.rx ∧
      y.len = len + c.inf - 1 ∧
      ∀ r < c.rx, Multipath c.tx (c.inf - 1) (fun t => c.st r t 0) x (ofFn y.len (y.val r)) := by
  obtain ⟨y, h1, h2, h3, h4⟩ := Verif.Channel.State.C69_propagate c
    (x := ⟨c.tx, len, fun t => toFn (x t)⟩) (le_refl _) hs hk
  refine ⟨y, h1, h2, h3, ?_⟩
  intro r hr m hm hml
  rw [ofFn_length] at hml
  rw [toFn_ofFn _ _ _ hml, h4 r hr m, show c.inf - 1 + 1 = c.inf by omega]
  refine Finset.sum_congr rfl fun t ht => Finset.sum_congr rfl fun k hk' => ?_
  rw [Finset.mem_range] at ht hk'
  rw [hstatic]
  by_cases hin : m < k + len
  · rw [if_pos ⟨by omega, hin⟩]
  · rw [if_neg (fun h => hin h.2)]
    have : toFn (x t) (m - k) = 0 := by
      unfold toFn
      rw [List.getElem?_eq_none (by rw [hx t ht]; omega)]
      rfl
    rw [this, mul_zero]

/-- C73: before the first sample of the channel there is nothing to estimate from. -/
theorem C73_unsampled (w : Wave ℂ) (bandwidth : ℚ) (os : Nat) (dc : Bool) (delay : ℚ) {ρ : Type}
    (position : ρ) : w.idealEstimate bandwidth os dc none delay position = .error .runtime := rfl

/-! ### Limits -/

/-- One subcarrier, `n` words of one sample without prefix. -/
def bareWave (n : Nat) : Wave ℂ where
  numSubcarriers := 1
  structure_ := [.symbols n [⟨1, .cyclic, 0, [⟨.data, 1⟩]⟩] 0]
  pilotSection := none
  defaultPilot := fun n => List.replicate n 1

theorem bareWave_starts : (bareWave 1).starts 1 1 = [0] ∧ (bareWave 2).starts 1 1 = [0, 1] := by
  constructor <;>
  simp [Wave.starts, bareWave, frameStarts, Section.starts, Np.tile, wordStarts, writtenPrefix,
    prefixSamples]

theorem bareWave_samples (n : Nat) : (bareWave n).samplesPerFrame 1 1 = n := by
  simp [Wave.samplesPerFrame, bareWave, Section.numSamples, prefixSamples]

theorem bare_backward (y : Nat → ℂ) : ofdmBackwardRow 1 1 false y 0 = y 0 := by
  simp [ofdmBackwardRow, fft, Norm.fwd, unrollSource, padStart]

/-- C73 is false for channels that change during a drop: the estimate of every frame is taken at the start of
the drop, whatever the start `k` of the frame and the configured reference position. Frame `k` of a drop of
single sample frames is received over coefficient `c k`, but its estimate is `c 0`. -/
theorem C73_delay_fails (c : Nat → ℂ) (k : Nat) (a : ℂ) {ρ : Type} (position : ρ) :
    (bareWave 1).demodulate (ofdmBackward 1 1 false) (ofdmCorrect 1 1 false) 1 1 [c k * a] =
      .ok [[c k * a]] ∧
    (bareWave 1).idealEstimate 1 1 false (some fun len => [ofFn len c]) (k : ℚ) position =
      .ok [[c 0]] := by
  have hs : ∀ s ∈ (bareWave 1).structure_, s.sampleOffset = 0 ∧ ∀ e, s ≠ .pilot e := by
    intro s hs
    rw [List.mem_singleton.1 hs]
    exact ⟨rfl, by simp⟩
  obtain ⟨h1, h2⟩ := C73_average (bareWave 1) false 1 1 hs (fun len => [ofFn len c])
    (by intro len l hl; rw [List.mem_singleton.1 hl, ofFn_length]) (k : ℚ) position
  rw [h1 _ _ _ (by rw [bareWave_samples]; simp), h2, bareWave_starts.1, bareWave_samples]
  constructor
  · simp [bareWave, window, ofdmBackward, ofFn, bare_backward, toFn]
  · simp [bareWave, window, ofFn, csiRow, fft, Norm.fwd, unrollSource, padStart, sampleMean]

example : (fun s => if s = 0 then (1 : ℂ) else 2) 1 ≠ (fun s => if s = 0 then (1 : ℂ) else 2) 0 := by
  norm_num

/-- C73 is false for delays beyond the prefix: the previous word leaks into the second one. -/
theorem C73_short_fails (a b : ℂ) (rx : List ℂ) (hl : 2 ≤ rx.length) :
    (bareWave 2).modulate (ofdmForward 1 1 false) 1 1 [[a], [b]] = .ok [some a, some b] ∧
    (Multipath 1 1 (fun _ _ => 1) (fun _ => [a, b]) rx →
      ∃ first, (bareWave 2).demodulate (ofdmBackward 1 1 false) (ofdmCorrect 1 1 false) 1 1 rx =
        .ok [first, [b + a]]) := by
  constructor
  · have e : ofdmForward 1 1 false [[a], [b]] = [[a], [b]] := by
      simp [ofdmForward, ofFn, ofdmForwardRow, ifft, Norm.bwd, rollSource, padded, padStart, toFn,
        Nat.mod_one]
    have e' : modulateLoop 1 1 1 (bareWave 2).structure_ [[a], [b]] = .ok [some a, some b] := by
      simp [bareWave, modulateLoop, Section.placeSamples, Section.numWords, placeWords, placePrefix,
        prefixSamples, Section.numSamples]
    have e'' : modulateLoop (bareWave 2).numSubcarriers 1 1 (bareWave 2).structure_
        (ofdmForward 1 1 false [[a], [b]]) = .ok [some a, some b] := by
      rw [e]
      exact e'
    simp only [Wave.modulate, e'']
    rfl
  · intro hm
    refine ⟨[toFn rx 0], ?_⟩
    have := demodulate_windows (bareWave 2) (ofdmBackward 1 1 false) (ofdmCorrect 1 1 false) 1 1
      (by intro s hs; rw [List.mem_singleton.1 hs]; rfl) rx (by rw [bareWave_samples]; exact hl)
    rw [this, bareWave_starts.2]
    have h1 := hm 1 (le_refl _) (by omega)
    simp only [Finset.sum_range_succ, Finset.sum_range_zero, zero_add, one_mul] at h1
    match rx, hl, h1 with
    | u :: v :: rest, _, h1 =>
      simp [toFn] at h1
      simp [bareWave, window, ofdmBackward, ofFn, bare_backward, toFn, h1]

theorem idealLoop_pilot (N : Nat) (bandwidth : ℚ) (os : Nat) (dc : Bool) (pre post : List (Section ℂ))
    (e : Option (Nat × List ℂ)) (hpre : ∀ s ∈ pre, s.sampleOffset = 0 ∧ ∀ e, s ≠ .pilot e)
    (taps : List (List ℂ))
    (hl : ∀ l ∈ taps, (pre.map (·.numSamples N bandwidth os)).sum ≤ l.length) :
    idealLoop N bandwidth os dc (pre ++ .pilot e :: post) taps = .error .value := by
  induction pre generalizing taps with
  | nil => rfl
  | cons s pre ih =>
    simp only [List.map_cons, List.sum_cons] at hl
    obtain ⟨h0, hnp⟩ := hpre s (by simp)
    rw [List.cons_append, idealLoop]
    rw [ih (fun s hs => hpre s (by simp [hs])) (taps.map (·.drop (s.numSamples N bandwidth os))) (by
      intro l hl'
      obtain ⟨l', hm, rfl⟩ := List.mem_map.1 hl'
      have := hl l' hm
      rw [List.length_drop]
      omega)]
    by_cases hw : s.numWords > 0
    · rw [if_pos hw]
      split
      · rename_i e' he
        have hone := idealLoop_windows N bandwidth os dc [s]
          (by intro s' hs'; rw [List.mem_singleton.1 hs']; exact ⟨h0, hnp⟩) taps (by
            intro l hl'
            have := hl l hl'
            simp only [List.map_cons, List.map_nil, List.sum_cons, List.sum_nil]
            omega)
        rw [idealLoop] at hone
        rw [if_pos hw, he] at hone
        cases hone
      · rfl
    · rw [if_neg hw]

/-- C73 is false for frames with pilot sections among their sections: whatever the channel, ideal estimation
raises. -/
theorem C73_pilot_fails (w : Wave ℂ) (bandwidth : ℚ) (os : Nat) (dc : Bool) (pre post : List (Section ℂ))
    (e : Option (Nat × List ℂ)) (hstruct : w.structure_ = pre ++ .pilot e :: post)
    (hpre : ∀ s ∈ pre, s.sampleOffset = 0 ∧ ∀ e, s ≠ .pilot e) (state : Nat → List (List ℂ))
    (hstate : ∀ len, ∀ l ∈ state len, l.length = len) (delay : ℚ) {ρ : Type} (position : ρ) :
    w.idealEstimate bandwidth os dc (some state) delay position = .error .value := by
  rw [Wave.idealEstimate]
  rw [hstruct]
  apply idealLoop_pilot _ _ _ _ _ _ _ hpre
  intro l hl
  obtain ⟨l', hm, rfl⟩ := List.mem_map.1 hl
  have hsum := w.samplesPerFrame_eq bandwidth os
  rw [hstruct, List.map_append, List.sum_append] at hsum
  rw [List.length_drop, hstate _ l' hm]
  omega

/-! ### Examples -/

/-- Two repetitions of a word of four subcarriers with a quarter of prefix, and a guard. -/
def guardedWave : Wave ℂ where
  numSubcarriers := 4
  structure_ := [.symbols 2 [⟨1, .cyclic, 1 / 4, [⟨.reference, 1⟩, ⟨.data, 2⟩]⟩] 0, .guard 1 1]
  pilotSection := none
  defaultPilot := fun n => List.replicate n 1

example : guardedWave.Fits ∧ (∀ s ∈ guardedWave.structure_, Guarded 1 (4 * 1) s) ∧
    guardedWave.numDataSymbols = 4 ∧ guardedWave.wordsPerFrame = 2 ∧
    guardedWave.starts 1 1 = [1, 6] := by
  refine ⟨⟨by decide, by simp [guardedWave]⟩, ?_, rfl, rfl, ?_⟩
  · intro s hs
    simp only [guardedWave, List.mem_cons, List.not_mem_nil, or_false] at hs
    rcases hs with rfl | rfl
    · refine ⟨rfl, ?_⟩
      intro r hr
      rw [List.mem_singleton.1 hr]
      refine ⟨rfl, ?_, ?_⟩ <;> norm_num [prefixSamples]
    · trivial
  · have hc : PrefixType.cyclic ≠ PrefixType.none := by decide
    norm_num [Wave.starts, guardedWave, frameStarts, Section.starts, Np.tile, wordStarts, writtenPrefix,
      prefixSamples, List.replicate_succ, hc]

/-- A channel with an echo of half the amplitude vanishes at no frequency. -/
example (n : Nat) (f : ℤ) : response n 1 (fun d => if d = 0 then 1 else if d = 1 then 1 / 2 else 0) f ≠ 0 := by
  intro h
  simp only [response, Finset.sum_range_succ, Finset.sum_range_zero, zero_add] at h
  have h2 : exp (-(2 * Real.pi * I * f * (1 : Nat) / n)) = -2 := by
    simp at h ⊢
    linear_combination 2 * h
  have h3 := congrArg (‖·‖) h2
  simp only [norm_exp] at h3
  norm_num at h3

end Verif.Modem
