import Verif.Modem.Grid
import Mathlib.Tactic.Linarith
import Mathlib.Tactic.Positivity
import Mathlib.Tactic.NormNum

/-!
# Time domain of orthogonal waveforms

`modulate` and `demodulate` of `hermespy/modem/waveforms/orthogonal/waveform.py`, over an arbitrary pair
of transformations between the symbol grid and the samples of its words. Samples that the code never
writes (the arrays come from `np.empty`) are `none`.
-/

namespace Verif.Modem

variable {α : Type}

/-- `int(num_subcarriers * oversampling_factor * prefix_ratio)` for words of `n` samples.
`waveforms/orthogonal/waveform.py` 538, 591, 634. -/
def prefixSamples (n : Nat) (r : Resource) : Nat := ⌊(n : ℚ) * r.prefixRatio⌋₊

/-- `num_samples` of a section. `waveforms/orthogonal/waveform.py` 627-637, 689-691, 762-764. -/
def Section.numSamples (N : Nat) (bandwidth : ℚ) (os : Nat) : Section α → Nat
  | .symbols reps pattern _ =>
    pattern.foldl (fun num r => num + prefixSamples (N * os) r) (pattern.length * (N * os)) * reps
  | .guard reps duration => ⌊(reps : ℚ) * duration * bandwidth * os⌋₊
  | .pilot _ => N * os

/-- Prefix of one word. Assigning the last `p` samples to a window of `p` samples fails if the word is
shorter than `p` (a single sample is broadcast). `waveforms/orthogonal/waveform.py` 538-559. -/
def placePrefix [Zero α] (n : Nat) (r : Resource) (row : List α) : Except PyErr (List α) :=
  let p := prefixSamples n r
  if p > 0 ∧ r.prefixType ≠ .none then
    match r.prefixType with
    | .cyclic =>
      let tail := row.drop (row.length - p)
      if tail.length = p then .ok tail
      else match tail with
        | [x] => .ok (List.replicate p x)
        | _ => .error .value
    | _ => .ok (List.replicate p 0)
  else .ok []

/-- The loop of `SymbolSection.place_samples` from word `k` on.
`waveforms/orthogonal/waveform.py` 530-563. -/
def placeWords [Zero α] (n : Nat) (pattern : List Resource) : Nat → List (List α) →
    Except PyErr (List α)
  | _, [] => .ok []
  | k, row :: rows =>
    match pattern[k % pattern.length]? with
    | none => .error .zeroDivision
    | some r =>
      match placePrefix n r row with
      | .error e => .error e
      | .ok pre =>
        match placeWords n pattern (k + 1) rows with
        | .error e => .error e
        | .ok rest => .ok (pre ++ row ++ rest)

/-- `place_samples` of a section: samples beyond those written stay uninitialised.
`waveforms/orthogonal/waveform.py` 520-565, 693-697, 855-860. -/
def Section.placeSamples [Zero α] (N : Nat) (bandwidth : ℚ) (os : Nat) (s : Section α)
    (signal : List (List α)) : Except PyErr (List (Option α)) :=
  match s with
  | .symbols _ pattern _ =>
    match placeWords (N * os) pattern 0 signal with
    | .error e => .error e
    | .ok xs => .ok (xs.map some ++ List.replicate (s.numSamples N bandwidth os - xs.length) none)
  | .guard _ _ => .ok (List.replicate (s.numSamples N bandwidth os) (some 0))
  | .pilot _ => .ok (signal.flatten.map some)

/-- The section loop of `modulate`. `waveforms/orthogonal/waveform.py` 1309-1321. -/
def modulateLoop [Zero α] (N : Nat) (bandwidth : ℚ) (os : Nat) : List (Section α) → List (List α) →
    Except PyErr (List (Option α))
  | [], _ => .ok []
  | s :: ss, grid =>
    match s.placeSamples N bandwidth os (grid.take s.numWords) with
    | .error e => .error e
    | .ok xs =>
      match modulateLoop N bandwidth os ss (grid.drop s.numWords) with
      | .error e => .error e
      | .ok rest => .ok (xs ++ rest)

/-- Samples of the pilot section preceding the grid (without the cache).
`waveforms/orthogonal/waveform.py` 869-891, 1299-1303. -/
def Wave.pilotSamples (w : Wave α) (forward : List (List α) → List (List α)) : List α :=
  match w.pilotSection with
  | none => []
  | some elements => (forward [pilotSequence w.defaultPilot elements w.numSubcarriers]).flatten

/-- `OrthogonalWaveform.modulate`. `waveforms/orthogonal/waveform.py` 1292-1323. -/
def Wave.modulate [Zero α] (w : Wave α) (forward : List (List α) → List (List α)) (bandwidth : ℚ)
    (os : Nat) (grid : List (List α)) : Except PyErr (List (Option α)) :=
  match modulateLoop w.numSubcarriers bandwidth os w.structure_ (forward grid) with
  | .error e => .error e
  | .ok xs => .ok ((w.pilotSamples forward).map some ++ xs)

/-- `OrthogonalWaveform.samples_per_frame`. `waveforms/orthogonal/waveform.py` 1180-1188. -/
def Wave.samplesPerFrame (w : Wave α) (bandwidth : ℚ) (os : Nat) : Nat :=
  w.structure_.foldl (fun num s => num + s.numSamples w.numSubcarriers bandwidth os) 0 +
    (if w.pilotSection.isSome then w.numSubcarriers * os else 0)

/-- `OrthogonalWaveform.frame_duration`. `waveforms/orthogonal/waveform.py` 1190-1192. -/
def Wave.frameDuration (w : Wave α) (bandwidth : ℚ) : ℚ :=
  w.samplesPerFrame bandwidth 1 / bandwidth

/-- Bound of a Python slice on a sequence of length `len`. -/
def sliceBound (len : Nat) (i : Int) : Nat :=
  if i < 0 then (i + len).toNat else min i.toNat len

/-- `xs[start:stop]`. -/
def pySlice (xs : List α) (start stop : Int) : List α :=
  (xs.drop (sliceBound xs.length start)).take
    (sliceBound xs.length stop - sliceBound xs.length start)

/-- Assignment of a slice to a row of `n` samples: equal length, or a single sample broadcast. -/
def rowAssign (n : Nat) (xs : List α) : Except PyErr (List α) :=
  if xs.length = n then .ok xs
  else match xs with
    | [x] => .ok (List.replicate n x)
    | _ => .error .value

/-- The loop of `SymbolSection.pick_samples`: `count` words from word `k` on, starting at sample
`index`. `waveforms/orthogonal/waveform.py` 582-612. -/
def pickWords (n : Nat) (pattern : List Resource) (offset : Int) (signal : List α) :
    Nat → Nat → Nat → Except PyErr (List (List α))
  | 0, _, _ => .ok []
  | count + 1, k, index =>
    match pattern[k % pattern.length]? with
    | none => .error .zeroDivision
    | some r =>
      let p := prefixSamples n r
      let index := if p > 0 ∧ r.prefixType ≠ .none then index + p else index
      match rowAssign n (pySlice signal (index - offset) (index + n - offset)) with
      | .error e => .error e
      | .ok row =>
        match pickWords n pattern offset signal count (k + 1) (index + n) with
        | .error e => .error e
        | .ok rows => .ok (row :: rows)

/-- `pick_samples` of a section, and the assignment of its result to the section's words.
`waveforms/orthogonal/waveform.py` 567-614, 699-703, 862-867, 1341-1345. -/
def Section.pickSamples (N os : Nat) (s : Section α) (signal : List α) :
    Except PyErr (List (List α)) :=
  match s with
  | .symbols reps pattern offset => pickWords (N * os) pattern offset signal (pattern.length * reps) 0 0
  | .guard _ _ => .ok []
  | .pilot _ =>
    match rowAssign (N * os) signal with
    | .error e => .error e
    | .ok row => .ok [row]

/-- The section loop of `demodulate`. `waveforms/orthogonal/waveform.py` 1337-1347. -/
def demodulateLoop (N : Nat) (bandwidth : ℚ) (os : Nat) : List (Section α) → List α →
    Except PyErr (List (List α))
  | [], _ => .ok []
  | s :: ss, signal =>
    match s.pickSamples N os (signal.take (s.numSamples N bandwidth os)) with
    | .error e => .error e
    | .ok rows =>
      match demodulateLoop N bandwidth os ss (signal.drop (s.numSamples N bandwidth os)) with
      | .error e => .error e
      | .ok rest => .ok (rows ++ rest)

/-- `sample_offset` of a section (pilot and guard sections have none).
`waveforms/orthogonal/waveform.py` 285-297, 755-760. -/
def Section.sampleOffset : Section α → Int
  | .symbols _ _ offset => offset
  | _ => 0

/-- The correction loop of `demodulate`: `block_idx` is never advanced, so that every correction applies
to the first words of the frame. `waveforms/orthogonal/waveform.py` 1352-1362. -/
def correctLoop (correct : List (List α) → Int → List (List α)) : List (Section α) →
    List (List α) → List (List α)
  | [], grid => grid
  | s :: ss, grid =>
    if s.sampleOffset ≠ 0 then
      correctLoop correct ss (correct (grid.take s.numWords) s.sampleOffset ++ grid.drop s.numWords)
    else correctLoop correct ss grid

/-- `OrthogonalWaveform.demodulate`. `waveforms/orthogonal/waveform.py` 1325-1364. -/
def Wave.demodulate (w : Wave α) (backward : List (List α) → List (List α))
    (correct : List (List α) → Int → List (List α)) (bandwidth : ℚ) (os : Nat) (signal : List α) :
    Except PyErr (List (List α)) :=
  let start := if w.pilotSection.isSome then w.numSubcarriers * os else 0
  match demodulateLoop w.numSubcarriers bandwidth os w.structure_ (signal.drop start) with
  | .error e => .error e
  | .ok grid => .ok (correctLoop correct w.structure_ (backward grid))

/-! ### Statement vocabulary -/

/-- The samples `rx` agree with the modulated ones wherever the modulator has written something. -/
def Realises (out : List (Option α)) (rx : List α) : Prop :=
  List.Forall₂ (fun o x => ∀ a, o = some a → x = a) out rx

/-- A word received `off` samples early. -/
def shiftWord (off : Nat) (row : List α) : List α :=
  row.drop (row.length - off) ++ row.take (row.length - off)

/-- A prefix is not longer than the word, and long enough for the sample offset of its section. -/
def PrefixOk (n off : Nat) (r : Resource) : Prop :=
  (r.prefixType = .cyclic → prefixSamples n r ≤ n) ∧
  (off = 0 ∨ (r.prefixType = .cyclic ∧ off ≤ prefixSamples n r))

/-- A section whose prefixes are not longer than the words and which is read at most its prefix early. -/
def SectionOk (n : Nat) : Section α → Prop
  | .symbols _ pattern offset => 0 ≤ offset ∧ ∀ r ∈ pattern, PrefixOk n offset.toNat r
  | _ => True

/-- The words of a frame as seen by a receiver: every section shifted by its sample offset. -/
def shiftedGrid : List (Section α) → List (List α) → List (List α)
  | [], grid => grid
  | s :: ss, grid =>
    (grid.take s.numWords).map (shiftWord s.sampleOffset.toNat) ++
      shiftedGrid ss (grid.drop s.numWords)

/-! ### Lemmas -/

theorem tile_getElem? {β : Type} (reps : Nat) (l : List β) (k : Nat) (hk : k < reps * l.length) :
    (Np.tile reps l)[k]? = l[k % l.length]? := by
  induction reps generalizing k with
  | zero => simp at hk
  | succ reps ih =>
    rw [Np.tile, List.replicate_succ, List.flatten_cons]
    by_cases h : k < l.length
    · rw [List.getElem?_append_left h, Nat.mod_eq_of_lt h]
    · have h' : l.length ≤ k := by omega
      rw [List.getElem?_append_right h']
      have : (List.replicate reps l).flatten = Np.tile reps l := rfl
      rw [this, ih (k - l.length) (by rw [Nat.succ_mul] at hk; omega)]
      congr 1
      rw [Nat.mod_eq_sub_mod h']

theorem tile_length {β : Type} (reps : Nat) (l : List β) :
    (Np.tile reps l).length = reps * l.length := by
  simp [Np.tile, List.length_flatten]

/-- Number of prefix samples actually written. -/
def writtenPrefix (n : Nat) (r : Resource) : Nat :=
  if r.prefixType = .none then 0 else prefixSamples n r

/-- Placing over an explicit list of resources. -/
def placeZip [Zero α] (n : Nat) : List Resource → List (List α) → Except PyErr (List α)
  | r :: rs, row :: rows =>
    match placePrefix n r row with
    | .error e => .error e
    | .ok pre =>
      match placeZip n rs rows with
      | .error e => .error e
      | .ok rest => .ok (pre ++ row ++ rest)
  | _, _ => .ok []

theorem placeWords_eq [Zero α] (n reps : Nat) (pattern : List Resource) (k : Nat)
    (rows : List (List α)) (h : k + rows.length = reps * pattern.length) :
    placeWords n pattern k rows = placeZip n ((Np.tile reps pattern).drop k) rows := by
  induction rows generalizing k with
  | nil =>
    rw [placeWords]
    cases (Np.tile reps pattern).drop k <;> rfl
  | cons row rows ih =>
    have hk : k < reps * pattern.length := by simp at h; omega
    have hk' : k < (Np.tile reps pattern).length := by rw [tile_length]; exact hk
    rw [placeWords, ← tile_getElem? reps pattern k hk, List.getElem?_eq_getElem hk',
      List.drop_eq_getElem_cons hk', placeZip]
    simp only []
    rw [ih (k + 1) (by simp at h; omega)]

/-- Picking over an explicit list of resources. -/
def pickZip (n : Nat) (offset : Int) (signal : List α) : List Resource → Nat →
    Except PyErr (List (List α))
  | [], _ => .ok []
  | r :: rs, index =>
    let p := prefixSamples n r
    let index := if p > 0 ∧ r.prefixType ≠ .none then index + p else index
    match rowAssign n (pySlice signal (index - offset) (index + n - offset)) with
    | .error e => .error e
    | .ok row =>
      match pickZip n offset signal rs (index + n) with
      | .error e => .error e
      | .ok rows => .ok (row :: rows)

theorem pickWords_eq (n reps : Nat) (pattern : List Resource) (offset : Int) (signal : List α)
    (count k index : Nat) (h : k + count = reps * pattern.length) :
    pickWords n pattern offset signal count k index =
      pickZip n offset signal ((Np.tile reps pattern).drop k) index := by
  induction count generalizing k index with
  | zero =>
    rw [List.drop_eq_nil_of_le (by rw [tile_length]; omega)]
    rfl
  | succ count ih =>
    have hk : k < reps * pattern.length := by omega
    have hk' : k < (Np.tile reps pattern).length := by rw [tile_length]; exact hk
    rw [pickWords, ← tile_getElem? reps pattern k hk, List.getElem?_eq_getElem hk',
      List.drop_eq_getElem_cons hk', pickZip]
    simp only []
    rw [ih (k + 1) _ (by omega)]

theorem placePrefix_ok [Zero α] (n : Nat) (r : Resource) (row : List α) (hn : row.length = n)
    (h : r.prefixType = .cyclic → prefixSamples n r ≤ n) :
    ∃ pre, placePrefix n r row = .ok pre ∧ pre.length = writtenPrefix n r ∧
      (r.prefixType = .cyclic → pre = row.drop (n - prefixSamples n r)) := by
  unfold placePrefix writtenPrefix
  by_cases hp : prefixSamples n r > 0 ∧ r.prefixType ≠ .none
  · simp only [if_pos hp, if_neg hp.2]
    cases ht : r.prefixType with
    | none => exact absurd ht hp.2
    | zeropad => exact ⟨_, rfl, by simp, by simp⟩
    | cyclic =>
      have := h ht
      refine ⟨row.drop (n - prefixSamples n r), ?_, ?_, fun _ => rfl⟩
      · simp only [hn]
        rw [if_pos (by rw [List.length_drop, hn]; omega)]
      · rw [List.length_drop, hn]; omega
  · simp only [if_neg hp]
    refine ⟨[], rfl, ?_, ?_⟩
    · by_cases ht : r.prefixType = .none
      · simp [ht]
      · have : prefixSamples n r = 0 := by
          by_contra h0
          exact hp ⟨by omega, ht⟩
        simp [this]
    · intro ht
      have : prefixSamples n r = 0 := by
        by_contra h0
        exact hp ⟨by omega, by rw [ht]; decide⟩
      rw [this, Nat.sub_zero, ← hn, List.drop_length]

theorem pySlice_nat (xs : List α) (a b : Nat) (hb : b ≤ xs.length) :
    pySlice xs (a : Int) (b : Int) = (xs.drop a).take (b - a) := by
  unfold pySlice sliceBound
  rw [if_neg (by omega), if_neg (by omega)]
  simp only [Int.toNat_natCast]
  by_cases h : a ≤ b
  · rw [Nat.min_eq_left (by omega : a ≤ xs.length), Nat.min_eq_left hb]
  · rw [show min b xs.length - min a xs.length = 0 by omega, show b - a = 0 by omega]
    simp

/-- What placing and picking do together on one symbol section. -/
theorem placeZip_spec [Zero α] (n off : Nat) (rs : List Resource) (rows : List (List α))
    (hl : rs.length = rows.length) (hrow : ∀ row ∈ rows, row.length = n)
    (hok : ∀ r ∈ rs, PrefixOk n off r) :
    ∃ out, placeZip n rs rows = .ok out ∧
      out.length = (rs.map (fun r => writtenPrefix n r + n)).sum ∧
      ∀ pre post : List α, pickZip n off (pre ++ out ++ post) rs pre.length =
        .ok (rows.map (shiftWord off)) := by
  induction rs generalizing rows with
  | nil =>
    have : rows = [] := List.eq_nil_of_length_eq_zero (by simpa using hl.symm)
    subst this
    exact ⟨[], rfl, rfl, fun _ _ => rfl⟩
  | cons r rs ih =>
    cases rows with
    | nil => simp at hl
    | cons row rows =>
      have hn := hrow row (by simp)
      have hr := hok r (by simp)
      obtain ⟨p, p1, p2, p3⟩ := placePrefix_ok n r row hn hr.1
      obtain ⟨rest, q1, q2, q3⟩ := ih rows (by simpa using hl)
        (fun row h => hrow row (by simp [h])) (fun r h => hok r (by simp [h]))
      refine ⟨p ++ row ++ rest, ?_, ?_, ?_⟩
      · simp only [placeZip, p1, q1]
      · simp only [List.length_append, List.map_cons, List.sum_cons, q2, p2, hn]
      · intro pre post
        rw [pickZip]
        have hidx : (if prefixSamples n r > 0 ∧ r.prefixType ≠ .none then
            pre.length + prefixSamples n r else pre.length) = pre.length + p.length := by
          rw [p2, writtenPrefix]
          by_cases ht : r.prefixType = .none
          · simp [ht]
          · by_cases h0 : prefixSamples n r > 0
            · rw [if_pos ⟨h0, ht⟩, if_neg ht]
            · rw [if_neg (fun h => h0 h.1), if_neg ht]; omega
        rw [hidx]
        have hoff : off ≤ p.length := by
          rcases hr.2 with h | ⟨h1, h2⟩
          · omega
          · rw [p2, writtenPrefix, h1, if_neg (by decide)]; exact h2
        have hoffn : off ≤ n := by
          rcases hr.2 with h | ⟨h1, h2⟩
          · omega
          · exact h2.trans (hr.1 h1)
        have hslice : pySlice (pre ++ (p ++ row ++ rest) ++ post)
            (((pre.length + p.length : Nat) : Int) - (off : Int))
            (((pre.length + p.length : Nat) : Int) + (n : Int) - (off : Int)) =
            shiftWord off row := by
          rw [show (((pre.length + p.length : Nat) : Int) - (off : Int)) =
              ((pre.length + p.length - off : Nat) : Int) by omega,
            show (((pre.length + p.length : Nat) : Int) + (n : Int) - (off : Int)) =
              ((pre.length + p.length + n - off : Nat) : Int) by omega,
            pySlice_nat _ _ _ (by simp only [List.length_append, hn]; omega)]
          rw [show pre.length + p.length + n - off - (pre.length + p.length - off) = n by omega,
            List.append_assoc, show pre.length + p.length - off = pre.length + (p.length - off) by omega,
            List.drop_append, List.drop_eq_nil_of_le (by omega : pre.length ≤ _), List.nil_append,
            show pre.length + (p.length - off) - pre.length = p.length - off by omega]
          rw [List.append_assoc, List.append_assoc, List.drop_append_of_le_length (by omega)]
          rw [List.take_append, List.length_drop]
          rw [List.take_of_length_le (by rw [List.length_drop]; omega)]
          rw [show n - (p.length - (p.length - off)) = n - off by omega,
            List.take_append_of_le_length (by omega)]
          unfold shiftWord
          rw [hn]
          congr 1
          rcases hr.2 with h | ⟨h1, h2⟩
          · subst h
            rw [Nat.sub_zero, List.drop_length, Nat.sub_zero, ← hn, List.drop_length]
          · have hpl : p.length = prefixSamples n r := by
              rw [p2, writtenPrefix, h1, if_neg (by decide)]
            rw [p3 h1, List.drop_drop, List.length_drop, hn]
            congr 1
            have := hr.1 h1
            omega
        rw [hslice]
        have hsl : (shiftWord off row).length = n := by
          unfold shiftWord
          rw [List.length_append, List.length_drop, List.length_take, hn]
          omega
        unfold rowAssign
        rw [if_pos hsl]
        simp only []
        have := q3 (pre ++ p ++ row) post
        rw [show (pre ++ p ++ row).length = pre.length + p.length + n by
          simp only [List.length_append, hn]] at this
        rw [show pre ++ (p ++ row ++ rest) ++ post = pre ++ p ++ row ++ rest ++ post by
          simp only [List.append_assoc], this]
        rfl

theorem numSamples_symbols (N : Nat) (bandwidth : ℚ) (os reps : Nat) (pattern : List Resource)
    (off : Int) :
    (Section.symbols reps pattern off : Section α).numSamples N bandwidth os =
      ((Np.tile reps pattern).map (fun r => prefixSamples (N * os) r + N * os)).sum := by
  simp only [Section.numSamples]
  rw [foldl_add_acc, show Np.tile reps pattern = (List.replicate reps pattern).flatten from rfl,
    sum_map_replicate_flatten]
  have : (pattern.map (fun r => prefixSamples (N * os) r + N * os)).sum =
      pattern.length * (N * os) + (pattern.map (prefixSamples (N * os))).sum := by
    induction pattern with
    | nil => simp
    | cons r l ih => simp only [List.map_cons, List.sum_cons, List.length_cons, ih]; ring
  rw [this]
  ring

theorem written_le (n : Nat) (rs : List Resource) :
    (rs.map (fun r => writtenPrefix n r + n)).sum ≤ (rs.map (fun r => prefixSamples n r + n)).sum := by
  induction rs with
  | nil => simp
  | cons r rs ih =>
    have : writtenPrefix n r ≤ prefixSamples n r := by unfold writtenPrefix; split <;> omega
    simp only [List.map_cons, List.sum_cons]
    omega

theorem realises_some (xs rx : List α) (h : Realises (xs.map some) rx) : rx = xs := by
  unfold Realises at h
  rw [List.forall₂_map_left_iff] at h
  induction h with
  | nil => rfl
  | cons h _ ih => rw [h _ rfl, ih]

theorem realises_append (a b : List (Option α)) (rx : List α) (h : Realises (a ++ b) rx) :
    Realises a (rx.take a.length) ∧ Realises b (rx.drop a.length) := by
  induction a generalizing rx with
  | nil => exact ⟨by simp [Realises], by simpa using h⟩
  | cons x a ih =>
    unfold Realises at h
    rw [List.cons_append] at h
    cases h with
    | cons h1 h2 =>
      obtain ⟨i1, i2⟩ := ih _ h2
      exact ⟨by simpa [Realises] using ⟨h1, i1⟩, by simpa using i2⟩

/-- What placing and picking do together on one section. -/
theorem section_spec [Zero α] (N : Nat) (bandwidth : ℚ) (os : Nat) (s : Section α)
    (rows : List (List α)) (hl : rows.length = s.numWords) (hrow : ∀ row ∈ rows, row.length = N * os)
    (hok : SectionOk (N * os) s) :
    ∃ out, s.placeSamples N bandwidth os rows = .ok out ∧
      out.length = s.numSamples N bandwidth os ∧
      ∀ rx, Realises out rx →
        s.pickSamples N os rx = .ok (rows.map (shiftWord s.sampleOffset.toNat)) := by
  cases s with
  | guard reps d =>
    refine ⟨_, rfl, by simp, fun rx _ => ?_⟩
    have : rows = [] := List.eq_nil_of_length_eq_zero (by simpa [Section.numWords] using hl)
    subst this
    rfl
  | pilot e =>
    obtain ⟨row, rfl⟩ : ∃ row, rows = [row] := List.length_eq_one_iff.1 hl
    have hn := hrow row (by simp)
    refine ⟨_, rfl, by simp [Section.numSamples, hn], fun rx hrx => ?_⟩
    have : rx = row := by
      have := realises_some [row].flatten rx hrx
      simpa using this
    subst this
    simp only [Section.pickSamples]
    unfold rowAssign
    rw [if_pos hn]
    simp [shiftWord, Section.sampleOffset]
  | symbols reps pattern offset =>
    obtain ⟨h0, hp⟩ := hok
    obtain ⟨off, rfl⟩ : ∃ off : Nat, offset = off := ⟨offset.toNat, by omega⟩
    have htl : (Np.tile reps pattern).length = rows.length := by rw [tile_length, hl]; rfl
    obtain ⟨out, h1, h2, h3⟩ := placeZip_spec (N * os) off (Np.tile reps pattern) rows htl hrow (by
      intro r hr
      have : r ∈ pattern := by
        simp only [Np.tile, List.mem_flatten, List.mem_replicate] at hr
        obtain ⟨l, ⟨_, rfl⟩, hr⟩ := hr
        exact hr
      simpa using hp r this)
    have hle := written_le (N * os) (Np.tile reps pattern)
    rw [← h2, ← numSamples_symbols (α := α) N bandwidth os reps pattern off] at hle
    refine ⟨out.map some ++ List.replicate ((Section.symbols reps pattern (off : Int) :
        Section α).numSamples N bandwidth os - out.length) none, ?_, ?_, ?_⟩
    · simp only [Section.placeSamples]
      rw [placeWords_eq (N * os) reps pattern 0 rows (by rw [hl]; simp [Section.numWords]),
        List.drop_zero, h1]
    · simp only [List.length_append, List.length_map, List.length_replicate]
      omega
    · intro rx hrx
      obtain ⟨r1, _⟩ := realises_append _ _ _ hrx
      have hx : rx.take out.length = out := by
        have := realises_some out _ (by simpa using r1)
        exact this
      simp only [Section.pickSamples]
      rw [pickWords_eq (N * os) reps pattern off rx (pattern.length * reps) 0 0 (by ring),
        List.drop_zero, ← List.take_append_drop out.length rx, hx]
      have := h3 [] (rx.drop out.length)
      simpa [Section.sampleOffset] using this

theorem loop_spec [Zero α] (N : Nat) (bandwidth : ℚ) (os : Nat) (ss : List (Section α))
    (rows : List (List α)) (hl : rows.length = (ss.map (·.numWords)).sum)
    (hrow : ∀ row ∈ rows, row.length = N * os) (hok : ∀ s ∈ ss, SectionOk (N * os) s) :
    ∃ out, modulateLoop N bandwidth os ss rows = .ok out ∧
      out.length = (ss.map (·.numSamples N bandwidth os)).sum ∧
      ∀ rx, Realises out rx → demodulateLoop N bandwidth os ss rx = .ok (shiftedGrid ss rows) := by
  induction ss generalizing rows with
  | nil =>
    have : rows = [] := List.eq_nil_of_length_eq_zero (by simpa using hl)
    subst this
    exact ⟨[], rfl, rfl, fun _ _ => rfl⟩
  | cons s ss ih =>
    rw [List.map_cons, List.sum_cons] at hl
    obtain ⟨o1, a1, a2, a3⟩ := section_spec N bandwidth os s (rows.take s.numWords)
      (by rw [List.length_take]; omega) (fun r h => hrow r (List.mem_of_mem_take h))
      (hok s (by simp))
    obtain ⟨o2, b1, b2, b3⟩ := ih (rows.drop s.numWords) (by rw [List.length_drop]; omega)
      (fun r h => hrow r (List.mem_of_mem_drop h)) (fun s h => hok s (by simp [h]))
    refine ⟨o1 ++ o2, by simp only [modulateLoop, a1, b1], by simp [a2, b2], ?_⟩
    intro rx hrx
    obtain ⟨r1, r2⟩ := realises_append _ _ _ hrx
    rw [a2] at r1 r2
    simp only [demodulateLoop, a3 _ r1, b3 _ r2, shiftedGrid]

theorem shiftWord_zero (row : List α) : shiftWord 0 row = row := by
  simp [shiftWord]

theorem shiftedGrid_zero (ss : List (Section α)) (h : ∀ s ∈ ss, s.sampleOffset = 0)
    (rows : List (List α)) : shiftedGrid ss rows = rows := by
  induction ss generalizing rows with
  | nil => rfl
  | cons s ss ih =>
    rw [shiftedGrid, h s (by simp), ih (fun s hs => h s (by simp [hs]))]
    have : (shiftWord (0 : Int).toNat : List α → List α) = id := by
      funext r; exact shiftWord_zero r
    rw [this, List.map_id, List.take_append_drop]

theorem correctLoop_zero (correct : List (List α) → Int → List (List α)) (ss : List (Section α))
    (h : ∀ s ∈ ss, s.sampleOffset = 0) (grid : List (List α)) :
    correctLoop correct ss grid = grid := by
  induction ss with
  | nil => rfl
  | cons s ss ih =>
    rw [correctLoop, if_neg (by simp [h s]), ih (fun s hs => h s (by simp [hs]))]

/-- A pair of transformations that loses nothing: words keep their number, get `N * os` samples each,
and are recovered. -/
def Lossless (N os : Nat) (forward backward : List (List α) → List (List α)) : Prop :=
  ∀ grid : List (List α), (∀ row ∈ grid, row.length = N) →
    (forward grid).length = grid.length ∧ (∀ row ∈ forward grid, row.length = N * os) ∧
      backward (forward grid) = grid

/-- What a receiver makes of a modulated frame, for sections read up to their prefix early. -/
theorem demodulate_modulate [Zero α] (w : Wave α) (forward backward : List (List α) → List (List α))
    (correct : List (List α) → Int → List (List α)) (bandwidth : ℚ) (os : Nat)
    (ht : Lossless w.numSubcarriers os forward backward)
    (hok : ∀ s ∈ w.structure_, SectionOk (w.numSubcarriers * os) s)
    (hpilot : ∀ e, w.pilotSection = some e →
      (pilotSequence w.defaultPilot e w.numSubcarriers).length = w.numSubcarriers)
    (grid : List (List α)) (hl : grid.length = w.wordsPerFrame)
    (hrow : ∀ row ∈ grid, row.length = w.numSubcarriers) :
    ∃ out, w.modulate forward bandwidth os grid = .ok out ∧
      out.length = w.samplesPerFrame bandwidth os ∧
      ∀ rx, Realises out rx → w.demodulate backward correct bandwidth os rx =
        .ok (correctLoop correct w.structure_
          (backward (shiftedGrid w.structure_ (forward grid)))) := by
  obtain ⟨t1, t2, t3⟩ := ht grid hrow
  obtain ⟨out, h1, h2, h3⟩ := loop_spec w.numSubcarriers bandwidth os w.structure_ (forward grid)
    (by rw [t1, hl, w.sums.2.2]) t2 hok
  have hp : (w.pilotSamples forward).length =
      (if w.pilotSection.isSome then w.numSubcarriers * os else 0) := by
    unfold Wave.pilotSamples
    cases he : w.pilotSection with
    | none => rfl
    | some e =>
      simp only [Option.isSome_some, if_true]
      obtain ⟨p1, p2, _⟩ := ht [pilotSequence w.defaultPilot e w.numSubcarriers]
        (by simpa using hpilot e he)
      obtain ⟨row, hr⟩ := List.length_eq_one_iff.1 p1
      rw [hr] at p2 ⊢
      simpa using p2 row (by simp)
  refine ⟨(w.pilotSamples forward).map some ++ out, ?_, ?_, ?_⟩
  · rw [Wave.modulate, h1]
  · rw [List.length_append, List.length_map, hp, h2, Wave.samplesPerFrame, foldl_add_acc, Nat.zero_add, Nat.add_comm]
  · intro rx hrx
    obtain ⟨_, r2⟩ := realises_append _ _ _ hrx
    rw [List.length_map, hp] at r2
    simp only [Wave.demodulate]
    rw [h3 _ r2]

/-- C56, any orthogonal waveform with lossless transformations: a frame has the announced number of
samples, and demodulating it returns the modulated grid, whatever the samples hold that the modulator
left uninitialised. Sections are read at their nominal position, cyclic prefixes are at most as long as
the words. -/
theorem C56_roundtrip [Zero α] (w : Wave α) (forward backward : List (List α) → List (List α))
    (correct : List (List α) → Int → List (List α)) (bandwidth : ℚ) (os : Nat)
    (ht : Lossless w.numSubcarriers os forward backward)
    (hoff : ∀ s ∈ w.structure_, s.sampleOffset = 0)
    (hcp : ∀ reps pattern off, Section.symbols reps pattern off ∈ w.structure_ → ∀ r ∈ pattern,
      r.prefixType = .cyclic → prefixSamples (w.numSubcarriers * os) r ≤ w.numSubcarriers * os)
    (hpilot : ∀ e, w.pilotSection = some e →
      (pilotSequence w.defaultPilot e w.numSubcarriers).length = w.numSubcarriers)
    (grid : List (List α)) (hl : grid.length = w.wordsPerFrame)
    (hrow : ∀ row ∈ grid, row.length = w.numSubcarriers) :
    ∃ out, w.modulate forward bandwidth os grid = .ok out ∧
      out.length = w.samplesPerFrame bandwidth os ∧
      ∀ rx, Realises out rx → w.demodulate backward correct bandwidth os rx = .ok grid := by
  obtain ⟨out, h1, h2, h3⟩ := demodulate_modulate w forward backward correct bandwidth os ht (by
    intro s hs
    cases s with
    | guard => trivial
    | pilot => trivial
    | symbols reps pattern off =>
      have h0 : off = 0 := hoff _ hs
      subst h0
      exact ⟨by simp, fun r hr => ⟨hcp _ _ _ hs r hr, Or.inl rfl⟩⟩) hpilot grid hl hrow
  refine ⟨out, h1, h2, fun rx hrx => ?_⟩
  rw [h3 rx hrx, shiftedGrid_zero _ hoff, correctLoop_zero _ _ hoff, (ht grid hrow).2.2]

/-- C56, whole chain: placing, modulating, demodulating and picking returns the data symbols. -/
theorem C56_chain [Zero α] (w : Wave α) (forward backward : List (List α) → List (List α))
    (correct : List (List α) → Int → List (List α)) (bandwidth : ℚ) (os : Nat)
    (ht : Lossless w.numSubcarriers os forward backward) (hfit : w.Fits)
    (hoff : ∀ s ∈ w.structure_, s.sampleOffset = 0)
    (hcp : ∀ reps pattern off, Section.symbols reps pattern off ∈ w.structure_ → ∀ r ∈ pattern,
      r.prefixType = .cyclic → prefixSamples (w.numSubcarriers * os) r ≤ w.numSubcarriers * os)
    (hpilot : ∀ e, w.pilotSection = some e →
      (pilotSequence w.defaultPilot e w.numSubcarriers).length = w.numSubcarriers)
    (data references : List α) (hd : data.length = w.numDataSymbols)
    (hr : references.length = w.referencesPerFrame) :
    ∃ grid out, w.place data references = .ok grid ∧
      w.modulate forward bandwidth os grid = .ok out ∧
      ∀ rx, Realises out rx → ∃ grid', w.demodulate backward correct bandwidth os rx = .ok grid' ∧
        w.pick grid' = .ok data := by
  obtain ⟨grid, h1, h2, h3, h4, _⟩ := C55_place w hfit data references hd hr
  obtain ⟨out, k1, _, k3⟩ := C56_roundtrip w forward backward correct bandwidth os ht hoff hcp hpilot
    grid h2 h3
  exact ⟨grid, out, h1, k1, fun rx hrx => ⟨grid, k3 rx hrx, by rw [C55_pick w hfit grid h2 h3, h4]⟩⟩

/-- C56 is false for resources without prefix but with a prefix ratio: the frame announces samples for
the prefix that the modulator never writes, so that the transmitted signal contains uninitialised
memory. Here: any single-word frame without prefix type whose ratio is not negligible. -/
theorem C56_uninitialised_fails [Zero α] (N os : Nat) (bandwidth : ℚ) (elements : List Element)
    (ratio : ℚ) (hp : 0 < ⌊((N * os : Nat) : ℚ) * ratio⌋₊)
    (forward : List (List α) → List (List α)) (default : Nat → List α) (grid : List (List α))
    (row : List α) (hf : forward grid = [row]) (hrow : row.length = N * os) :
    ∃ out, (⟨N, [.symbols 1 [⟨1, .none, ratio, elements⟩] 0], none, default⟩ : Wave α).modulate forward
        bandwidth os grid = .ok out ∧
      out = row.map some ++ List.replicate ⌊((N * os : Nat) : ℚ) * ratio⌋₊ none ∧ none ∈ out := by
  refine ⟨_, ?_, rfl, ?_⟩
  · simp [Wave.modulate, Wave.pilotSamples, hf, modulateLoop, Section.numWords, Section.placeSamples,
      placeWords, placePrefix, Section.numSamples, prefixSamples]
    omega
  · exact List.mem_append_right _ (List.mem_replicate.2 ⟨by omega, rfl⟩)

/-- C56, initialised samples: if every resource that has a prefix ratio also has a prefix type, every
sample of a frame is written. -/
theorem C56_initialised [Zero α] (w : Wave α) (forward backward : List (List α) → List (List α))
    (bandwidth : ℚ) (os : Nat)
    (ht : Lossless w.numSubcarriers os forward backward)
    (hok : ∀ s ∈ w.structure_, SectionOk (w.numSubcarriers * os) s)
    (hnone : ∀ reps pattern off, Section.symbols reps pattern off ∈ w.structure_ → ∀ r ∈ pattern,
      r.prefixType = .none → prefixSamples (w.numSubcarriers * os) r = 0)
    (grid : List (List α)) (hl : grid.length = w.wordsPerFrame)
    (hrow : ∀ row ∈ grid, row.length = w.numSubcarriers) :
    ∃ xs : List α, w.modulate forward bandwidth os grid = .ok (xs.map some) := by
  obtain ⟨t1, t2, _⟩ := ht grid hrow
  have key : ∀ (ss : List (Section α)) (rows : List (List α)),
      (∀ s ∈ ss, SectionOk (w.numSubcarriers * os) s) →
      (∀ reps pattern off, Section.symbols reps pattern off ∈ ss → ∀ r ∈ pattern,
        r.prefixType = .none → prefixSamples (w.numSubcarriers * os) r = 0) →
      rows.length = (ss.map (·.numWords)).sum →
      (∀ row ∈ rows, row.length = w.numSubcarriers * os) →
      ∃ xs : List α, modulateLoop w.numSubcarriers bandwidth os ss rows = .ok (xs.map some) := by
    intro ss
    induction ss with
    | nil => intro rows _ _ _ _; exact ⟨[], rfl⟩
    | cons s ss ih =>
      intro rows hok hnone hl hrow
      rw [List.map_cons, List.sum_cons] at hl
      obtain ⟨ys, hy⟩ := ih (rows.drop s.numWords) (fun s h => hok s (by simp [h]))
        (fun a b c h => hnone a b c (by simp [h])) (by rw [List.length_drop]; omega)
        (fun r h => hrow r (List.mem_of_mem_drop h))
      have hs : ∃ xs : List α, s.placeSamples w.numSubcarriers bandwidth os (rows.take s.numWords) =
          .ok (xs.map some) := by
        cases hse : s with
        | guard reps d => exact ⟨List.replicate _ 0, by simp [Section.placeSamples]; rfl⟩
        | pilot e => exact ⟨_, rfl⟩
        | symbols reps pattern off =>
          have hk := hok s (by simp)
          rw [hse] at hk
          obtain ⟨h0, hp⟩ := hk
          have hlen : (rows.take s.numWords).length = reps * pattern.length := by
            rw [List.length_take, hse]
            rw [hse] at hl
            simp only [Section.numWords] at hl ⊢
            omega
          have hmem : ∀ r ∈ Np.tile reps pattern, r ∈ pattern := by
            intro r hr
            simp only [Np.tile, List.mem_flatten, List.mem_replicate] at hr
            obtain ⟨l, ⟨_, rfl⟩, hr⟩ := hr
            exact hr
          obtain ⟨out, h1, h2, _⟩ := placeZip_spec (w.numSubcarriers * os) off.toNat
            (Np.tile reps pattern) (rows.take s.numWords) (by rw [tile_length, hlen])
            (fun r h => hrow r (List.mem_of_mem_take h)) (fun r hr => hp r (hmem r hr))
          have heq : ((Np.tile reps pattern).map
              (fun r => writtenPrefix (w.numSubcarriers * os) r + w.numSubcarriers * os)) =
              ((Np.tile reps pattern).map
              (fun r => prefixSamples (w.numSubcarriers * os) r + w.numSubcarriers * os)) := by
            apply List.map_congr_left
            intro r hr
            unfold writtenPrefix
            split
            · rename_i ht
              rw [hnone reps pattern off (by rw [hse]; simp) r (hmem r hr) ht]
            · rfl
          rw [hse] at h1
          refine ⟨out, ?_⟩
          simp only [Section.placeSamples]
          rw [placeWords_eq (w.numSubcarriers * os) reps pattern 0 _ (by rw [← hse, hlen]; omega),
            List.drop_zero, h1]
          simp only []
          rw [numSamples_symbols, ← heq, h2]
          simp
      obtain ⟨xs, hx⟩ := hs
      exact ⟨xs ++ ys, by simp only [modulateLoop, hx, hy, List.map_append]⟩
  obtain ⟨xs, hx⟩ := key w.structure_ (forward grid) hok hnone (by rw [t1, hl, w.sums.2.2]) t2
  exact ⟨w.pilotSamples forward ++ xs, by rw [Wave.modulate, hx, List.map_append]⟩

/-! ### C58, frame durations -/

theorem floor_mul_le (a : ℚ) (ha : 0 ≤ a) (os : Nat) : os * ⌊a⌋₊ ≤ ⌊a * os⌋₊ := by
  apply Nat.le_floor
  push_cast
  have := Nat.floor_le ha
  have ho : (0 : ℚ) ≤ os := by positivity
  nlinarith

theorem lt_floor_mul (a : ℚ) (os : Nat) (hos : 0 < os) : ⌊a * os⌋₊ < os * (⌊a⌋₊ + 1) := by
  rw [Nat.floor_lt' (by positivity)]
  have := Nat.lt_floor_add_one a
  have ho : (0 : ℚ) < os := by positivity
  push_cast
  nlinarith

/-- Number of roundings in a section's sample count. -/
def Section.roundings : Section α → Nat
  | .symbols reps pattern _ => reps * pattern.length
  | .guard _ _ => 1
  | .pilot _ => 0

theorem section_samples_scale (N : Nat) (bandwidth : ℚ) (hb : 0 < bandwidth) (os : Nat) (hos : 0 < os)
    (s : Section α) (hr : ∀ reps pattern off, s = .symbols reps pattern off →
      ∀ r ∈ pattern, 0 ≤ r.prefixRatio) (hg : ∀ reps d, s = .guard reps d → 0 ≤ d) :
    os * s.numSamples N bandwidth 1 ≤ s.numSamples N bandwidth os ∧
      s.numSamples N bandwidth os ≤ os * s.numSamples N bandwidth 1 + (os - 1) * s.roundings := by
  cases s with
  | pilot e => simp [Section.numSamples]; constructor <;> nlinarith
  | guard reps d =>
    have hd := hg reps d rfl
    simp only [Section.numSamples, Section.roundings, Nat.cast_one, mul_one]
    have h0 : (0 : ℚ) ≤ reps * d * bandwidth := by positivity
    have h1 := floor_mul_le _ h0 os
    have h2 := lt_floor_mul (reps * d * bandwidth) os hos
    refine ⟨h1, ?_⟩
    rw [Nat.mul_add] at h2
    omega
  | symbols reps pattern off =>
    have hp := hr reps pattern off rfl
    simp only [Section.numSamples, Section.roundings, foldl_add_acc]
    have key : os * (pattern.map (prefixSamples (N * 1))).sum ≤
        (pattern.map (prefixSamples (N * os))).sum ∧
        (pattern.map (prefixSamples (N * os))).sum ≤
          os * (pattern.map (prefixSamples (N * 1))).sum + (os - 1) * pattern.length := by
      clear hr hg
      induction pattern with
      | nil => simp
      | cons r l ih =>
        obtain ⟨i1, i2⟩ := ih (fun r h => hp r (by simp [h]))
        have h0 : (0 : ℚ) ≤ N * r.prefixRatio := by
          have := hp r (by simp)
          positivity
        have h1 := floor_mul_le _ h0 os
        have h2 := lt_floor_mul (N * r.prefixRatio) os hos
        have e : prefixSamples (N * os) r = ⌊(N : ℚ) * r.prefixRatio * os⌋₊ := by
          unfold prefixSamples
          congr 1
          push_cast
          ring
        have e1 : prefixSamples (N * 1) r = ⌊(N : ℚ) * r.prefixRatio⌋₊ := by
          unfold prefixSamples
          simp
        simp only [List.map_cons, List.sum_cons, List.length_cons, e, e1]
        rw [Nat.mul_add] at h2
        simp only [Nat.mul_add]
        omega
    set a := (pattern.map (prefixSamples (N * 1))).sum
    set b := (pattern.map (prefixSamples (N * os))).sum
    obtain ⟨k1, k2⟩ := key
    constructor
    · calc os * ((pattern.length * (N * 1) + a) * reps)
          = (pattern.length * (N * os) + os * a) * reps := by ring
        _ ≤ (pattern.length * (N * os) + b) * reps := Nat.mul_le_mul_right _ (by omega)
    · calc (pattern.length * (N * os) + b) * reps
          ≤ (pattern.length * (N * os) + (os * a + (os - 1) * pattern.length)) * reps :=
            Nat.mul_le_mul_right _ (by omega)
        _ = os * ((pattern.length * (N * 1) + a) * reps) + (os - 1) * (reps * pattern.length) := by
            ring

/-- C58, bounds: the samples of a frame take at least the announced frame duration; they exceed it by
less than one symbol interval per rounded prefix and guard section. -/
theorem C58_duration_partial (w : Wave α) (bandwidth : ℚ) (hb : 0 < bandwidth) (os : Nat)
    (hos : 0 < os)
    (hr : ∀ reps pattern off, Section.symbols reps pattern off ∈ w.structure_ →
      ∀ r ∈ pattern, 0 ≤ r.prefixRatio)
    (hg : ∀ reps d, Section.guard reps d ∈ w.structure_ → 0 ≤ d) :
    w.frameDuration bandwidth ≤ w.samplesPerFrame bandwidth os / (bandwidth * os) ∧
    w.samplesPerFrame bandwidth os / (bandwidth * os) ≤
      w.frameDuration bandwidth + (w.structure_.map (·.roundings)).sum / bandwidth := by
  have key : ∀ ss : List (Section α), (∀ s ∈ ss, s ∈ w.structure_) →
      os * (ss.map (·.numSamples w.numSubcarriers bandwidth 1)).sum ≤
        (ss.map (·.numSamples w.numSubcarriers bandwidth os)).sum ∧
      (ss.map (·.numSamples w.numSubcarriers bandwidth os)).sum ≤
        os * (ss.map (·.numSamples w.numSubcarriers bandwidth 1)).sum +
          (os - 1) * (ss.map (·.roundings)).sum := by
    intro ss
    induction ss with
    | nil => simp
    | cons s ss ih =>
      intro hss
      obtain ⟨i1, i2⟩ := ih (fun s h => hss s (by simp [h]))
      have hmem := hss s (by simp)
      obtain ⟨j1, j2⟩ := section_samples_scale w.numSubcarriers bandwidth hb os hos s
        (fun a b c h => hr a b c (by rw [← h]; exact hmem)) (fun a d h => hg a d (by rw [← h]; exact hmem))
      simp only [List.map_cons, List.sum_cons, Nat.mul_add]
      omega
  obtain ⟨k1, k2⟩ := key w.structure_ (fun s h => h)
  have hp : (if w.pilotSection.isSome then w.numSubcarriers * os else 0) =
      os * (if w.pilotSection.isSome then w.numSubcarriers * 1 else 0) := by
    split <;> ring
  unfold Wave.frameDuration Wave.samplesPerFrame
  rw [foldl_add_acc, foldl_add_acc, hp]
  set A := (w.structure_.map (·.numSamples w.numSubcarriers bandwidth 1)).sum
  set B := (w.structure_.map (·.numSamples w.numSubcarriers bandwidth os)).sum
  set P := (if w.pilotSection.isSome then w.numSubcarriers * 1 else 0)
  set R := (w.structure_.map (·.roundings)).sum
  have ho : (0 : ℚ) < os := by positivity
  have k3 : B ≤ os * A + os * R := k2.trans (by
    have : (os - 1) * R ≤ os * R := Nat.mul_le_mul_right _ (by omega)
    omega)
  have q1 : (os : ℚ) * A ≤ B := by exact_mod_cast k1
  have q3 : (B : ℚ) ≤ os * A + os * R := by exact_mod_cast k3
  constructor
  · rw [div_le_div_iff₀ hb (by positivity)]
    push_cast
    nlinarith
  · rw [← add_div, div_le_div_iff₀ (by positivity) hb]
    push_cast
    nlinarith

/-- C58 is false: with an oversampling factor of two, a frame of a single word with three subcarriers
and a prefix ratio of one half takes 9 samples, 4.5 symbol intervals, but announces 4. -/
theorem C58_duration_fails :
    let w : Wave ℚ := ⟨3, [.symbols 1 [⟨1, .cyclic, 1 / 2, [⟨.data, 3⟩]⟩] 0], none, fun _ => []⟩
    w.samplesPerFrame 1 2 / (1 * 2 : ℚ) = 9 / 2 ∧ w.frameDuration 1 = 4 := by
  have e1 : (⌊(3 : ℚ) / 2⌋₊ : Nat) = 1 := by
    rw [Nat.floor_eq_iff (by norm_num)]; norm_num
  have e2 : (⌊(3 : ℚ) * 2 * 2⁻¹⌋₊ : Nat) = 3 := by
    rw [Nat.floor_eq_iff (by norm_num)]; norm_num
  constructor
  · norm_num [Wave.samplesPerFrame, Section.numSamples, prefixSamples, e2]
  · norm_num [Wave.frameDuration, Wave.samplesPerFrame, Section.numSamples, prefixSamples, e1]

end Verif.Modem
