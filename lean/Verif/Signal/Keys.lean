import Verif.Signal.Assign

/-!
# C134: keys of assignments to sparse signals

`SparseSignal._parse_validate_itemkey` and the beginning of `SparseSignal.__setitem__` of `hermespy/core/signal_model.py`: which
streams and samples a key stands for, compared with indexing of numpy arrays.
-/

namespace Verif.Keys

open Verif (PyErr)

/-! ### Model -/

/-- One part of a key: an integer, a slice, or anything else. -/
inductive Part where
  | index (k : Int)
  | slice (start stop step : Option Int)
  | other

/-- A key: a pair, a single part, or a mask of the given shape. -/
inductive Key where
  | pair (a b : Part)
  | single (a : Part)
  | mask (rows cols : Nat)

/-- Start, stop and step. -/
structure Range where
  start : Int
  stop : Int
  step : Int

/-- A negative bound modulo the size of the dimension, `core/signal_model.py` 1852-1853; modulo zero raises. -/
def wrap (x : Int) (n : Nat) : Except PyErr Int :=
  if 0 ≤ x then .ok x else if n = 0 then .error .zeroDivision else .ok (x % n)

/-- `__parse_slice`, `core/signal_model.py` 1841-1854. -/
def parseSlice (start stop step : Option Int) (n : Nat) : Except PyErr Range := do
  let a ← wrap (start.getD 0) n
  let b ← wrap (stop.getD n) n
  .ok ⟨a, b, step.getD 1⟩

/-- Integer keys, `core/signal_model.py` 1907-1915, 1925-1933 and 1963-1971, for Python integers. -/
def parseIndex (k : Int) (n : Nat) : Except PyErr Range :=
  if (n : Int) ≤ k then .error .index
  else if n = 0 then .error .zeroDivision
  else .ok ⟨k % n, k % n + 1, 1⟩

/-- The key of the streams; `strict` refuses empty slices also if there are no streams, `core/signal_model.py` 1901-1919 and
1958-1971. -/
def parseStreams (p : Part) (n : Nat) (strict : Bool) : Except PyErr Range :=
  match p with
  | .slice a b c => do
    let r ← parseSlice a b c n
    if r.start ≥ r.stop ∧ (strict = true ∨ n ≠ 0) then .error .index else .ok r
  | .index k => parseIndex k n
  | .other => .error .type

/-- The key of the samples, `core/signal_model.py` 1923-1935. -/
def parseSamples (p : Part) (n : Nat) : Except PyErr Range :=
  match p with
  | .slice a b c => parseSlice a b c n
  | .index k => parseIndex k n
  | .other => .error .type

/-- `_parse_validate_itemkey`, `core/signal_model.py` 1856-1995: ranges of streams and of samples, and whether the key is a
mask. -/
def parseKey (k : Key) (M N : Nat) : Except PyErr (Range × Range × Bool) :=
  match k with
  | .pair a b => do
    let s ← parseStreams a M false
    let t ← parseSamples b N
    .ok (s, t, false)
  | .single a => do
    let s ← parseStreams a M true
    .ok (s, ⟨0, N, 1⟩, false)
  | .mask r c => if r = M ∧ c = N then .ok (⟨0, M, 1⟩, ⟨0, N, 1⟩, true) else .error .type

/-- `np.arange`, for positive steps. -/
def arange (r : Range) : List Int :=
  (List.range ((r.stop - r.start + r.step - 1) / r.step).toNat).map fun i : ℕ => r.start + i * r.step

/-- What an assignment is about to write: the streams, the range of samples, and the shape of what is written. -/
structure Target where
  streams : List Int
  start : Int
  stop : Int
  numStreams : Int
  numSamples : Int

/-- The beginning of `__setitem__`, `core/signal_model.py` 2168-2184 and 2207, up to the parsing of the value. -/
def target (k : Key) (M N : Nat) : Except PyErr Target := do
  let (s, t, mask) ← parseKey k M N
  if s.step ≤ 0 ∨ t.step ≤ 0 then .error .notImplemented
  else if t.step ≠ 1 then .error .notImplemented
  else if mask = true then .error .notImplemented
  else .ok ⟨arange ⟨s.start, min M s.stop, s.step⟩, t.start, min N t.stop, min M ((s.stop - s.start + s.step - 1) / s.step),
    min N (t.stop - t.start)⟩

/-! ### Indexing of arrays -/

/-- A bound of a slice of `n` elements: negative ones count from the end, and those outside are moved to the ends. -/
def clip (x : Int) (n : Nat) : Int := if x < 0 then max (x + n) 0 else min x n

/-- Whether a slice with a positive step selects an element of `n`. -/
def Selects (start stop step : Option Int) (n : Nat) (i : Int) : Prop :=
  clip (start.getD 0) n ≤ i ∧ i < clip (stop.getD n) n ∧ step.getD 1 ∣ i - clip (start.getD 0) n

/-- Whether part of a key selects an element; integers select one of those there are. -/
def Part.Selects (p : Part) (n : Nat) (i : Int) : Prop :=
  match p with
  | .index k => 0 ≤ i ∧ i < n ∧ (i = k ∨ i = k + n)
  | .slice a b c => Keys.Selects a b c n i
  | .other => False

/-- Bounds are not further than the size before the end, steps positive. -/
def Part.Within (p : Part) (n : Nat) : Prop :=
  match p with
  | .index k => -(n : Int) ≤ k ∧ k < n
  | .slice a b c => -(n : Int) ≤ a.getD 0 ∧ -(n : Int) ≤ b.getD n ∧ 0 < c.getD 1
  | .other => False

theorem mem_arange (r : Range) (h : 0 < r.step) (i : Int) :
    i ∈ arange r ↔ r.start ≤ i ∧ i < r.stop ∧ r.step ∣ i - r.start := by
  unfold arange
  rw [List.mem_map]
  constructor
  · rintro ⟨j, hj, rfl⟩
    rw [List.mem_range] at hj
    have hj' : (j : Int) + 1 ≤ (r.stop - r.start + r.step - 1) / r.step := by omega
    have h1 := Int.mul_le_of_le_ediv h hj'
    refine ⟨?_, ?_, ⟨j, by ring⟩⟩
    · have : 0 ≤ (j : Int) * r.step := by positivity
      omega
    · have : ((j : Int) + 1) * r.step = j * r.step + r.step := by ring
      omega
  · rintro ⟨h1, h2, ⟨c, hc⟩⟩
    have hc0 : 0 ≤ c := by
      by_contra hneg
      have : r.step * c ≤ r.step * (-1) := by
        apply mul_le_mul_of_nonneg_left _ h.le
        omega
      omega
    refine ⟨c.toNat, ?_, ?_⟩
    · rw [List.mem_range]
      have : c + 1 ≤ (r.stop - r.start + r.step - 1) / r.step := by
        rw [Int.le_ediv_iff_mul_le h]
        have : (c + 1) * r.step = r.step * c + r.step := by ring
        omega
      omega
    · rw [Int.toNat_of_nonneg hc0, mul_comm]
      omega

theorem wrap_within (x : Int) (n : Nat) (h : -(n : Int) ≤ x) :
    ∃ y, wrap x n = .ok y ∧ 0 ≤ y ∧ min y n = clip x n := by
  unfold wrap clip
  by_cases h0 : 0 ≤ x
  · exact ⟨x, by rw [if_pos h0], h0, by rw [if_neg (by omega)]⟩
  · have hn : n ≠ 0 := by omega
    refine ⟨x % n, by rw [if_neg h0, if_neg hn], Int.emod_nonneg _ (by omega), ?_⟩
    have e : x % n = x + n := by
      rw [← Int.add_emod_right, Int.emod_eq_of_lt (by omega) (by omega)]
    rw [if_pos (by omega), e]
    omega

/-- What the parser makes of a part within bounds. -/
theorem parseSlice_within (a b c : Option Int) (n : Nat) (h : (Part.slice a b c).Within n) :
    ∃ x y, parseSlice a b c n = .ok ⟨x, y, c.getD 1⟩ ∧ 0 ≤ x ∧ 0 ≤ y ∧
      ∀ i, i ∈ arange ⟨x, min n y, c.getD 1⟩ ↔ (Part.slice a b c).Selects n i := by
  obtain ⟨h1, h2, h3⟩ := h
  obtain ⟨x, hx, hx0, hxc⟩ := wrap_within _ n h1
  obtain ⟨y, hy, hy0, hyc⟩ := wrap_within _ n h2
  refine ⟨x, y, ?_, hx0, hy0, fun i => ?_⟩
  · unfold parseSlice
    rw [hx, hy]
    rfl
  · rw [mem_arange _ h3]
    dsimp only [Part.Selects, Selects]
    rw [← hxc, ← hyc, min_comm y]
    by_cases hxn : x ≤ n
    · rw [min_eq_left hxn]
    · constructor
      · rintro ⟨p, q, -⟩
        omega
      · rintro ⟨p, q, -⟩
        omega

theorem parseIndex_within (k : Int) (n : Nat) (h : (Part.index k).Within n) :
    ∃ x, parseIndex k n = .ok ⟨x, x + 1, 1⟩ ∧ 0 ≤ x ∧ x < n ∧ (x = k ∨ x = k + n) := by
  obtain ⟨h1, h2⟩ := h
  have hn : n ≠ 0 := by omega
  refine ⟨k % n, by unfold parseIndex; rw [if_neg (by omega), if_neg hn], Int.emod_nonneg _ (by omega),
    Int.emod_lt_of_pos _ (by omega), ?_⟩
  by_cases h0 : 0 ≤ k
  · left; exact Int.emod_eq_of_lt h0 h2
  · right; rw [← Int.add_emod_right, Int.emod_eq_of_lt (by omega) (by omega)]

/-! ### C134 -/

/-- C134, pairs: with bounds not further before the start than there are elements, positive steps of streams and none of samples,
exactly the streams are written that arrays of the same shape would write, if there is any, and the range of samples is that of
arrays. -/
theorem C134_selection_partial (a b : Part) (M N : Nat) (ha : a.Within M) (hb : b.Within N)
    (hstep : ∀ x y z, b = .slice x y z → z.getD 1 = 1) (hne : ∃ i, a.Selects M i) :
    ∃ t, target (.pair a b) M N = .ok t ∧ (∀ i, i ∈ t.streams ↔ a.Selects M i) ∧
      ∀ i, (t.start ≤ i ∧ i < t.stop) ↔ b.Selects N i := by
  have hs : ∃ r, parseStreams a M false = .ok r ∧ 0 < r.step ∧
      ∀ i, i ∈ arange ⟨r.start, min M r.stop, r.step⟩ ↔ a.Selects M i := by
    cases a with
    | other => exact ha.elim
    | index k =>
      obtain ⟨x, hx, h0, hlt, hor⟩ := parseIndex_within k M ha
      refine ⟨_, hx, one_pos, fun i => ?_⟩
      dsimp only
      rw [mem_arange _ one_pos]
      dsimp only [Part.Selects]
      have := ha.1
      have := ha.2
      constructor
      · rintro ⟨p, q, -⟩; omega
      · rintro ⟨p, q, r⟩; exact ⟨by omega, by omega, one_dvd _⟩
    | slice x y z =>
      obtain ⟨p, q, hp, hp0, hq0, hsel⟩ := parseSlice_within x y z M ha
      refine ⟨⟨p, q, z.getD 1⟩, ?_, ha.2.2, hsel⟩
      simp only [parseStreams, hp]
      show (if _ then _ else _) = _
      rw [if_neg]
      rintro ⟨hge, -⟩
      obtain ⟨i, hi⟩ := hne
      have := (mem_arange _ ha.2.2 i).mp ((hsel i).mpr hi)
      dsimp only at this hge
      omega
  have ht : ∃ r, parseSamples b N = .ok r ∧ r.step = 1 ∧ ∀ i, (r.start ≤ i ∧ i < min (N : Int) r.stop) ↔ b.Selects N i := by
    cases b with
    | other => exact hb.elim
    | index k =>
      obtain ⟨x, hx, h0, hlt, hor⟩ := parseIndex_within k N hb
      refine ⟨_, hx, rfl, fun i => ?_⟩
      dsimp only [Part.Selects]
      have := hb.1
      have := hb.2
      omega
    | slice x y z =>
      obtain ⟨p, q, hp, hp0, hq0, hsel⟩ := parseSlice_within x y z N hb
      have hz := hstep x y z rfl
      refine ⟨⟨p, q, z.getD 1⟩, hp, hz, fun i => ?_⟩
      rw [← hsel i, mem_arange _ hb.2.2]
      dsimp only
      rw [hz]
      simp
  obtain ⟨r, hr, hr0, hrs⟩ := hs
  obtain ⟨t, ht, ht1, hts⟩ := ht
  refine ⟨⟨arange ⟨r.start, min M r.stop, r.step⟩, t.start, min N t.stop, min M ((r.stop - r.start + r.step - 1) / r.step),
    min N (t.stop - t.start)⟩, ?_, hrs, hts⟩
  unfold target parseKey
  simp only [hr, ht]
  show (if _ then _ else _) = _
  rw [if_neg (by dsimp only; omega), if_neg (by dsimp only; omega), if_neg (by simp)]

example : (Part.slice (some (-2)) none (some 2)).Within 3 ∧ (Part.index (-1)).Within 3 ∧
    ∃ i, (Part.slice (some (-2)) none (some 2)).Selects 3 i :=
  ⟨⟨by decide, by decide, by decide⟩, ⟨by decide, by decide⟩, 1, by decide, by decide, by decide⟩

/-- C134, single keys stand for all samples of the selected streams. -/
theorem C134_single (a : Part) (M N : Nat) (t : Target) (h : target (.single a) M N = .ok t) :
    t.start = 0 ∧ t.stop = N ∧ t.numSamples = N := by
  unfold target parseKey at h
  cases hp : parseStreams a M true with
  | error e => simp only [hp] at h; cases h
  | ok r =>
    simp only [hp] at h
    change (if _ then _ else _) = _ at h
    dsimp only at h
    by_cases h1 : r.step ≤ 0 ∨ (1 : Int) ≤ 0
    · rw [if_pos h1] at h; cases h
    rw [if_neg h1, if_neg (by simp), if_neg (by simp)] at h
    cases h
    simp

/-- C134, shape: if slices end within the signal and are not empty, as many samples are expected as are written, and as many
streams. -/
theorem C134_shape_partial (a b : Part) (M N : Nat) (r s : Range) (hr : parseStreams a M false = .ok r) (hs : parseSamples b N = .ok s)
    (h0 : 0 ≤ r.start) (h1 : r.stop ≤ M) (h2 : r.start < r.stop) (h3 : 0 ≤ s.start) (h4 : s.stop ≤ N) (h5 : 0 < r.step) (h6 : s.step = 1) :
    ∃ t, target (.pair a b) M N = .ok t ∧ (t.streams.length : Int) = t.numStreams ∧ t.numSamples = t.stop - t.start := by
  refine ⟨⟨arange ⟨r.start, min M r.stop, r.step⟩, s.start, min N s.stop, min M ((r.stop - r.start + r.step - 1) / r.step),
    min N (s.stop - s.start)⟩, ?_, ?_, ?_⟩
  · unfold target parseKey
    simp only [hr, hs]
    show (if _ then _ else _) = _
    rw [if_neg (by dsimp only; omega), if_neg (by dsimp only; omega), if_neg (by simp)]
  · dsimp only
    have hle : (r.stop - r.start + r.step - 1) / r.step ≤ r.stop - r.start := by
      apply Int.ediv_le_of_le_mul h5
      nlinarith
    have hnn : 0 ≤ (r.stop - r.start + r.step - 1) / r.step := Int.ediv_nonneg (by omega) h5.le
    rw [min_eq_right h1, min_eq_right (by omega)]
    simp only [arange, List.length_map, List.length_range]
    omega
  · dsimp only; omega

example : ∃ r s, parseStreams (.slice none none none) 2 false = .ok r ∧ parseSamples (.slice (some 1) (some (-1)) none) 4 = .ok s ∧
    r.stop = 2 ∧ s.start = 1 ∧ s.stop = 3 := ⟨_, _, rfl, rfl, rfl, rfl, rfl⟩

/-- C134, refusals: indices beyond the end are refused, as are keys of other types and masks of other shapes; masks, negative
steps and steps of samples are not implemented. -/
theorem C134_refused (M N : Nat) (k : Int) (b : Part) :
    ((M : Int) ≤ k → target (.pair (.index k) b) M N = .error .index ∧ target (.single (.index k)) M N = .error .index) ∧
      target (.pair .other b) M N = .error .type ∧ target (.single .other) M N = .error .type ∧
      (∀ r c, target (.mask r c) M N = if r = M ∧ c = N then .error .notImplemented else .error .type) ∧
      (∀ x y z r, z ≠ 1 → parseStreams (.slice none none none) M false = .ok r → parseSlice x y (some z) N = .ok ⟨0, N, z⟩ →
        target (.pair (.slice none none none) (.slice x y (some z))) M N = .error .notImplemented) := by
  refine ⟨fun h => ⟨?_, ?_⟩, rfl, rfl, fun r c => ?_, fun x y z r hz hr hs => ?_⟩
  · unfold target parseKey parseStreams parseIndex
    simp only [if_pos h]
    rfl
  · unfold target parseKey parseStreams parseIndex
    simp only [if_pos h]
    rfl
  · unfold target parseKey
    by_cases h : r = M ∧ c = N
    · simp only [if_pos h]
      rfl
    · simp only [if_neg h]
      rfl
  · unfold target parseKey
    have hp : parseSamples (.slice x y (some z)) N = .ok ⟨0, N, z⟩ := hs
    simp only [hr, hp]
    show (if _ then _ else _) = _
    by_cases h1 : r.step ≤ 0 ∨ z ≤ 0
    · rw [if_pos h1]
    · rw [if_neg h1, if_pos hz]

/-- C134, refusals of samples: with streams that can be parsed, indices of samples beyond the end and keys of samples of other types are refused. -/
theorem C134_refused_samples (M N : Nat) (a : Part) (r : Range) (ha : parseStreams a M false = .ok r) (k : Int) (hk : (N : Int) ≤ k) :
    target (.pair a (.index k)) M N = .error .index ∧ target (.pair a .other) M N = .error .type := by
  constructor
  · unfold target parseKey parseSamples parseIndex
    simp only [ha, if_pos hk]
    rfl
  · unfold target parseKey parseSamples
    simp only [ha]
    rfl

example : target (.pair (.index 1) (.index 7)) 2 7 = .error .index ∧ target (.pair (.index 1) .other) 2 7 = .error .type :=
  C134_refused_samples 2 7 (.index 1) ⟨1, 2, 1⟩ rfl 7 (by decide)

/-- C134 fails for indices before the start: of any number of streams, the index just before the first one is the last, where
arrays refuse it. -/
theorem C134_index_fails (M : Nat) (hM : 0 < M) :
    parseStreams (.index (-(M : Int) - 1)) M false = .ok ⟨M - 1, M, 1⟩ ∧ ∀ i, ¬(Part.index (-(M : Int) - 1)).Selects M i := by
  refine ⟨?_, fun i h => ?_⟩
  · have e : (-(M : Int) - 1) % M = M - 1 := by
      rw [← Int.add_emod_right, ← Int.add_emod_right, Int.emod_eq_of_lt (by omega) (by omega)]
      omega
    simp only [parseStreams, parseIndex]
    rw [if_neg (by omega), if_neg (by omega), e]
    simp
  · dsimp only [Part.Selects] at h
    omega

/-- C134 fails for slices starting before the start: of two or more streams, only the last is written instead of all. -/
theorem C134_start_fails (M : Nat) (hM : 2 ≤ M) (N : Nat) :
    ∃ t, target (.pair (.slice (some (-(M : Int) - 1)) none none) (.slice none none none)) M N = .ok t ∧
      t.streams = [(M : Int) - 1] ∧ ∀ i, (Part.slice (some (-(M : Int) - 1)) none none).Selects M i ↔ 0 ≤ i ∧ i < M := by
  have e : (-(M : Int) - 1) % M = M - 1 := by
    rw [← Int.add_emod_right, ← Int.add_emod_right, Int.emod_eq_of_lt (by omega) (by omega)]
    omega
  have hp : parseStreams (.slice (some (-(M : Int) - 1)) none none) M false = .ok ⟨M - 1, M, 1⟩ := by
    have h1 : wrap (-(M : Int) - 1) M = .ok ((M : Int) - 1) := by
      unfold wrap
      rw [if_neg (by omega), if_neg (by omega), e]
    have h2 : wrap (M : Int) M = .ok (M : Int) := if_pos (by omega)
    simp only [parseStreams, parseSlice, Option.getD_some, Option.getD_none, h1, h2]
    show (if _ then _ else _) = _
    rw [if_neg (by dsimp only; omega)]
  have hs : parseSamples (.slice none none none) N = .ok ⟨0, N, 1⟩ := by
    have h1 : wrap 0 N = .ok 0 := rfl
    have h2 : wrap (N : Int) N = .ok (N : Int) := if_pos (by omega)
    simp only [parseSamples, parseSlice, Option.getD_none, h1, h2]
    rfl
  refine ⟨⟨arange ⟨M - 1, min M M, 1⟩, 0, min N N, min M ((M - (M - 1) + 1 - 1) / 1), min N (N - 0)⟩, ?_, ?_, fun i => ?_⟩
  · unfold target parseKey
    simp only [hp, hs]
    rfl
  · dsimp only
    unfold arange
    dsimp only
    rw [show ((min (M : Int) M - (M - 1) + 1 - 1) / 1).toNat = 1 by rw [min_self, Int.ediv_one]; omega]
    simp
  · dsimp only [Part.Selects, Selects]
    simp only [Option.getD_some, Option.getD_none]
    unfold clip
    rw [if_pos (by omega), if_neg (by omega)]
    have : max (-(M : Int) - 1 + M) 0 = 0 := by omega
    rw [this]
    simp

/-- C134 fails for empty slices of streams: they are refused, where arrays do nothing; without any stream they are refused only
by themselves. -/
theorem C134_empty_fails (M N : Nat) (hM : 0 < M) :
    target (.pair (.slice (some 0) (some 0) none) (.slice none none none)) M N = .error .index ∧
      target (.single (.slice none none none)) 0 N = .error .index ∧
      (∃ t, target (.pair (.slice none none none) (.slice none none none)) 0 N = .ok t) ∧
      ∀ i, ¬(Part.slice (some 0) (some 0) none).Selects M i := by
  have hs : parseSamples (.slice none none none) N = .ok ⟨0, N, 1⟩ := by
    have h1 : wrap 0 N = .ok 0 := rfl
    have h2 : wrap (N : Int) N = .ok (N : Int) := if_pos (by omega)
    simp only [parseSamples, parseSlice, Option.getD_none, h1, h2]
    rfl
  refine ⟨?_, rfl, ?_, fun i h => ?_⟩
  · have : parseStreams (.slice (some 0) (some 0) none) M false = .error .index := by
      show (if (0 : Int) ≥ 0 ∧ (false = true ∨ M ≠ 0) then _ else _) = _
      rw [if_pos ⟨le_refl _, Or.inr (by omega)⟩]
    unfold target parseKey
    simp only [this]
    rfl
  · unfold target parseKey
    simp only [show parseStreams (.slice none none none) 0 false = .ok ⟨0, 0, 1⟩ from rfl, hs]
    exact ⟨_, rfl⟩
  · dsimp only [Part.Selects, Selects] at h
    simp only [Option.getD_some] at h
    omega

/-- C134 fails for signals without samples or streams: negative bounds are divisions by zero. -/
theorem C134_division_fails (N : Nat) (k : Int) (hk : k < 0) (b : Part) :
    target (.pair (.index k) b) 0 N = .error .zeroDivision ∧
      target (.pair (.slice (some k) none none) b) 0 N = .error .zeroDivision := by
  constructor
  · have : parseStreams (.index k) 0 false = .error .zeroDivision := by
      unfold parseStreams parseIndex
      dsimp only
      rw [if_neg (by simpa using hk), if_pos rfl]
    unfold target parseKey
    simp only [this]
    rfl
  · have : parseStreams (.slice (some k) none none) 0 false = .error .zeroDivision := by
      have h1 : wrap k 0 = .error .zeroDivision := by
        unfold wrap; rw [if_neg (by omega), if_pos rfl]
      simp only [parseStreams, parseSlice, Option.getD_some, h1]
      rfl
    unfold target parseKey
    simp only [this]
    rfl

/-- C134 fails for slices ending beyond the signal: more samples are expected, and written, than there are from the start of the
slice on.  Half of a signal, to the end and further, counts as all of it. -/
theorem C134_beyond_fails (M N : Nat) (hM : 0 < M) :
    ∃ t, target (.pair (.slice none none none) (.slice (some N) (some (3 * N)) none)) M (2 * N) = .ok t ∧
      t.stop - t.start = N ∧ t.numSamples = 2 * N := by
  have hp : parseStreams (.slice none none none) M false = .ok ⟨0, M, 1⟩ := by
    have h1 : wrap 0 M = .ok 0 := rfl
    have h2 : wrap (M : Int) M = .ok (M : Int) := if_pos (by omega)
    simp only [parseStreams, parseSlice, Option.getD_none, h1, h2]
    show (if _ then _ else _) = _
    rw [if_neg (by dsimp only; omega)]
  have hs : parseSamples (.slice (some (N : Int)) (some (3 * N)) none) (2 * N) = .ok ⟨N, 3 * N, 1⟩ := by
    have h1 : wrap (N : Int) (2 * N) = .ok (N : Int) := if_pos (by omega)
    have h2 : wrap (3 * N : Int) (2 * N) = .ok (3 * N : Int) := if_pos (by omega)
    simp only [parseSamples, parseSlice, Option.getD_some, Option.getD_none, h1, h2]
    rfl
  refine ⟨⟨arange ⟨0, min M M, 1⟩, N, min (2 * N : ℕ) (3 * N), min M (((M : Int) - 0 + 1 - 1) / 1), min (2 * N : ℕ) (3 * N - N)⟩, ?_, ?_, ?_⟩
  · unfold target parseKey
    simp only [hp, hs]
    rfl
  · dsimp only; push_cast; omega
  · dsimp only; push_cast; omega

/-- C134 fails for slices ending beyond the last stream: values with as many streams as are selected have not the expected
shape. -/
theorem C134_streams_fails (M N : Nat) (hM : 2 ≤ M) :
    ∃ t, target (.pair (.slice (some 1) (some (M + 1)) none) (.slice none none none)) M N = .ok t ∧
      t.streams.length = M - 1 ∧ t.numStreams = M := by
  have hp : parseStreams (.slice (some 1) (some ((M : Int) + 1)) none) M false = .ok ⟨1, M + 1, 1⟩ := by
    have h1 : wrap 1 M = .ok 1 := rfl
    have h2 : wrap ((M : Int) + 1) M = .ok ((M : Int) + 1) := if_pos (by omega)
    simp only [parseStreams, parseSlice, Option.getD_some, Option.getD_none, h1, h2]
    show (if _ then _ else _) = _
    rw [if_neg (by dsimp only; omega)]
  have hs : parseSamples (.slice none none none) N = .ok ⟨0, N, 1⟩ := by
    have h1 : wrap 0 N = .ok 0 := rfl
    have h2 : wrap (N : Int) N = .ok (N : Int) := if_pos (by omega)
    simp only [parseSamples, parseSlice, Option.getD_none, h1, h2]
    rfl
  refine ⟨⟨arange ⟨1, min M (M + 1), 1⟩, 0, min N N, min M (((M : Int) + 1 - 1 + 1 - 1) / 1), min N ((N : Int) - 0)⟩, ?_, ?_, ?_⟩
  · unfold target parseKey
    simp only [hp, hs]
    rfl
  · simp only [arange, List.length_map, List.length_range, Int.ediv_one]
    omega
  · simp only [Int.ediv_one]
    omega

/-- C134 fails beyond the end in effect: assigning a number to the second of two samples and whatever follows makes the signal
three samples long. -/
theorem C134_growth_fails :
    Verif.Signal.setItem ([⟨0, [![1], ![2]]⟩] : List (Verif.Signal.Block 1)) 1 3 (.scalar 9) =
      .ok [⟨0, [![1], fun _ => 9, fun _ => 9]⟩] := by
  simp [Verif.Signal.setItem, Verif.Signal.replaceRange, Verif.Signal.findStart, Verif.Signal.findStop, Verif.Signal.startLoop,
    Verif.Signal.stopLoop, Verif.Signal.numSamples, Verif.Signal.Block.stop, Verif.Signal.asList, Verif.Signal.mergeAt,
    Verif.Signal.mergeIf, Verif.Signal.pyTake, bind, Except.bind, List.replicate]

/-- C134 fails for reversed slices of samples: a negative number of samples is expected. -/
theorem C134_reversed_fails (M : Nat) (hM : 0 < M) (N a b : Nat) (hab : b < a) :
    (∃ t, target (.pair (.slice none none none) (.slice (some a) (some b) none)) M N = .ok t ∧ t.numSamples < 0) ∧
      ∀ i, ¬(Part.slice (some (a : Int)) (some b) none).Selects N i := by
  have hp : parseStreams (.slice none none none) M false = .ok ⟨0, M, 1⟩ := by
    have h1 : wrap 0 M = .ok 0 := rfl
    have h2 : wrap (M : Int) M = .ok (M : Int) := if_pos (by omega)
    simp only [parseStreams, parseSlice, Option.getD_none, h1, h2]
    show (if _ then _ else _) = _
    rw [if_neg (by dsimp only; omega)]
  have hs : parseSamples (.slice (some (a : Int)) (some (b : Int)) none) N = .ok ⟨a, b, 1⟩ := by
    have h1 : wrap (a : Int) N = .ok (a : Int) := if_pos (by omega)
    have h2 : wrap (b : Int) N = .ok (b : Int) := if_pos (by omega)
    simp only [parseSamples, parseSlice, Option.getD_some, Option.getD_none, h1, h2]
    rfl
  refine ⟨⟨⟨arange ⟨0, min M M, 1⟩, a, min N b, min M (((M : Int) - 0 + 1 - 1) / 1), min N ((b : Int) - a)⟩, ?_, ?_⟩, fun i h => ?_⟩
  · unfold target parseKey
    simp only [hp, hs]
    rfl
  · dsimp only; omega
  · dsimp only [Part.Selects, Selects] at h
    simp only [Option.getD_some] at h
    unfold clip at h
    rw [if_neg (by omega), if_neg (by omega)] at h
    omega

end Verif.Keys
