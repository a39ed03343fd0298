import Verif.Signal.Assign
import Mathlib.Analysis.Complex.Norm

/-!
# C25, C26: dense signals

A dense signal is an array of `M` streams and `N` samples.  Signals are taken to have the same
sampling rate and carrier frequency, so that resampling and mixing return the samples unchanged
(`signal_model.py` 543-544, 619-620).
-/

namespace Verif.Signal

/-- Two-dimensional numpy array. -/
structure Arr where
  M : Nat
  N : Nat
  x : Nat → Nat → ℂ

/-- Observed entry, zero outside the array. -/
def Arr.get (d : Arr) (m n : Nat) : ℂ := if m < d.M ∧ n < d.N then d.x m n else 0

/-- `np.zeros`. -/
def Arr.zeros (M N : Nat) : Arr := ⟨M, N, fun _ _ => 0⟩

/-- Index into a dimension of extent `n`, constant for an extent of one (numpy broadcasting). -/
def bidx (n i : Nat) : Nat := if n = 1 then 0 else i

/-- `d[r0:r1, c0:c1] = f(d, v)` with numpy's clipping of slices and broadcasting of the value;
`ValueError` if the shapes do not fit. -/
def Arr.update (f : ℂ → ℂ → ℂ) (d : Arr) (r0 r1 c0 c1 : Nat) (v : Arr) : Except PyErr Arr :=
  let r1 := min r1 d.M
  let c1 := min c1 d.N
  if (v.M = r1 - r0 ∨ v.M = 1) ∧ (v.N = c1 - c0 ∨ v.N = 1) then
    .ok ⟨d.M, d.N, fun m n =>
      if r0 ≤ m ∧ m < r1 ∧ c0 ≤ n ∧ n < c1 then
        f (d.x m n) (v.x (bidx v.M (m - r0)) (bidx v.N (n - c0)))
      else d.x m n⟩
  else .error .value

/-- Plain slice assignment. -/
def Arr.put (d : Arr) (r0 r1 c0 c1 : Nat) (v : Arr) : Except PyErr Arr :=
  d.update (fun _ b => b) r0 r1 c0 c1 v

/-- In-place addition to a slice. -/
def Arr.addTo (d : Arr) (r0 r1 c0 c1 : Nat) (v : Arr) : Except PyErr Arr :=
  d.update (fun a b => a + b) r0 r1 c0 c1 v

/-- `d[:, k:]`. -/
def Arr.dropCols (d : Arr) (k : Nat) : Arr := ⟨d.M, d.N - k, fun m n => d.x m (n + k)⟩

/-- `d[:, :k]` for any integer `k`. -/
def Arr.takeCols (d : Arr) (k : Int) : Arr :=
  ⟨d.M, if 0 ≤ k then min k.toNat d.N else (d.N + k).toNat, d.x⟩

/-- Dense signal with its delay and sampling rate. -/
structure Dense where
  a : Arr
  rate : ℚ
  delay : ℚ

/-- Alignment of the added signal, `signal_model.py` 1471-1493. -/
def Dense.aligned (s v : Dense) : Arr :=
  if s.delay ≠ v.delay then
    if s.delay > v.delay then v.a.dropCols (pyRound ((s.delay - v.delay) * v.rate)).toNat
    else v.a.takeCols (v.a.N - pyRound ((v.delay - s.delay) * v.rate))
  else v.a

/-- `DenseSignal.superimpose` of a dense signal onto all streams, `signal_model.py` 1446-1534.  A
signal without samples returns the added signal itself (line 1459). -/
def Dense.superimpose (s v : Dense) : Except PyErr Dense :=
  if s.a.M * s.a.N < 1 then .ok v
  else
    let w := s.aligned v
    let fits := w.M ≤ s.a.M ∧ w.N ≤ s.a.N
    let big : Except PyErr Arr :=
      if fits then .ok s.a
      else (Arr.zeros (max s.a.M w.M) (max s.a.N w.N)).addTo 0 s.a.M 0 s.a.N s.a
    do
      let r ← big
      let r ← r.addTo 0 r.M 0 w.N w
      .ok { s with a := r }

/-- `DenseSignal.append_samples` of a dense signal or matrix, `signal_model.py` 1370-1399. -/
def Arr.appendSamples (d v : Arr) : Except PyErr Arr := do
  let r ← (Arr.zeros d.M (d.N + v.N)).put 0 d.M 0 d.N d
  r.put 0 d.M d.N (d.N + v.N) v

/-- `DenseSignal.append_streams` of a dense signal or matrix, `signal_model.py` 1402-1431. -/
def Arr.appendStreams (d v : Arr) : Except PyErr Arr := do
  let r ← (Arr.zeros (d.M + v.M) d.N).put 0 d.M 0 d.N d
  r.put d.M (d.M + v.M) 0 v.N v

theorem update_get (f : ℂ → ℂ → ℂ) (d : Arr) (r0 r1 c0 c1 : Nat) (v : Arr) (hr : r1 ≤ d.M)
    (hc : c1 ≤ d.N) (h1 : v.M = r1 - r0) (h2 : v.N = c1 - c0) :
    ∃ r, d.update f r0 r1 c0 c1 v = .ok r ∧ r.M = d.M ∧ r.N = d.N ∧
      ∀ m n, r.get m n = if r0 ≤ m ∧ m < r1 ∧ c0 ≤ n ∧ n < c1
        then f (d.get m n) (v.get (m - r0) (n - c0)) else d.get m n := by
  unfold Arr.update
  rw [Nat.min_eq_left hr, Nat.min_eq_left hc]
  refine ⟨_, if_pos ⟨Or.inl h1, Or.inl h2⟩, rfl, rfl, fun m n => ?_⟩
  unfold Arr.get
  dsimp only
  by_cases h : r0 ≤ m ∧ m < r1 ∧ c0 ≤ n ∧ n < c1
  · rw [if_pos h, if_pos h, if_pos (by omega), if_pos (by omega), if_pos (by omega)]
    have e1 : bidx v.M (m - r0) = m - r0 := by unfold bidx; split <;> omega
    have e2 : bidx v.N (n - c0) = n - c0 := by unfold bidx; split <;> omega
    rw [e1, e2]
  · rw [if_neg h, if_neg h]

theorem zeros_get (M N m n : Nat) : (Arr.zeros M N).get m n = 0 := by
  unfold Arr.get Arr.zeros; split <;> rfl

/-! ### C25 -/

/-- C25 if the added signal starts no later than the first and has as many streams: the result holds
at every time the sum of both signals, the added one displaced by the rounded delay difference, is
long enough for both, and keeps rate and delay.  Missing for the full claim: later signals
(`C25_later_signal_fails`) and other stream counts (`C25_fewer_streams_fails`). -/
theorem C25_superimpose_partial (s v : Dense) (hs : 0 < s.a.M) (hn : 0 < s.a.N)
    (hm : v.a.M = s.a.M) (hd : v.delay ≤ s.delay) (hrate : 0 ≤ v.rate) :
    ∃ k : Nat, (k : ℤ) = pyRound ((s.delay - v.delay) * v.rate) ∧
    ∃ r, s.superimpose v = .ok r ∧ r.rate = s.rate ∧ r.delay = s.delay ∧ r.a.M = s.a.M ∧
      r.a.N = max s.a.N (v.a.N - k) ∧
      ∀ m n, r.a.get m n = s.a.get m n + v.a.get m (n + k) := by
  obtain ⟨k, hk⟩ := Int.eq_ofNat_of_zero_le (pyRound_nonneg
    (x := (s.delay - v.delay) * v.rate) (mul_nonneg (by linarith) hrate))
  refine ⟨k, hk.symm, ?_⟩
  have hal : (s.aligned v).M = s.a.M ∧ (s.aligned v).N = v.a.N - k ∧
      ∀ m n, (s.aligned v).get m n = v.a.get m (n + k) := by
    unfold Dense.aligned
    by_cases he : s.delay = v.delay
    · rw [if_neg (by simpa using he)]
      rw [he, sub_self, zero_mul, pyRound_zero] at hk
      have : k = 0 := by simpa using hk.symm
      subst this
      exact ⟨hm, rfl, fun m n => rfl⟩
    · rw [if_pos he, if_pos (lt_of_le_of_ne hd (Ne.symm he)), hk]
      refine ⟨hm, by simp [Arr.dropCols], fun m n => ?_⟩
      unfold Arr.get Arr.dropCols
      simp only [Int.ofNat_eq_natCast, Int.toNat_natCast]
      congr 1
      apply propext
      constructor <;> intro h <;> exact ⟨h.1, by omega⟩
  obtain ⟨w1, w2, w3⟩ := hal
  unfold Dense.superimpose
  rw [if_neg (by have := Nat.mul_pos hs hn; omega)]
  dsimp only
  generalize s.aligned v = w at *
  have hbig : ∃ b : Arr, (if w.M ≤ s.a.M ∧ w.N ≤ s.a.N then .ok s.a
      else (Arr.zeros (max s.a.M w.M) (max s.a.N w.N)).addTo 0 s.a.M 0 s.a.N s.a) =
        (.ok b : Except PyErr Arr) ∧ b.M = s.a.M ∧ b.N = max s.a.N w.N ∧
        ∀ m n, b.get m n = s.a.get m n := by
    by_cases hf : w.M ≤ s.a.M ∧ w.N ≤ s.a.N
    · exact ⟨s.a, if_pos hf, rfl, by omega, fun _ _ => rfl⟩
    · rw [if_neg hf]
      obtain ⟨r, e1, e2, e3, e4⟩ := update_get (fun a b => a + b)
        (Arr.zeros (max s.a.M w.M) (max s.a.N w.N)) 0 s.a.M 0 s.a.N s.a (by simp [Arr.zeros])
        (by simp [Arr.zeros]) (by omega) (by omega)
      refine ⟨r, e1, by rw [e2]; simp [Arr.zeros]; omega, by rw [e3]; simp [Arr.zeros], ?_⟩
      intro m n
      rw [e4, zeros_get]
      split
      · simp
      · unfold Arr.get; rw [if_neg (by omega)]
  obtain ⟨b, hb1, hb2, hb3, hb4⟩ := hbig
  rw [hb1]
  simp only [bind, Except.bind]
  obtain ⟨r, e1, e2, e3, e4⟩ := update_get (fun a b => a + b) b 0 b.M 0 w.N w (le_refl _)
    (by omega) (by omega) (by omega)
  have e1' : b.addTo 0 b.M 0 w.N w = .ok r := e1
  rw [e1']
  refine ⟨_, rfl, rfl, rfl, by dsimp only; omega, by dsimp only; omega, fun m n => ?_⟩
  dsimp only
  rw [e4, hb4, ← w3]
  split
  · simp
  · next h =>
    have : w.get m n = 0 := by unfold Arr.get; rw [if_neg (by omega)]
    rw [this, add_zero]

/-- C25 fails if the added signal starts later: it is added without any displacement and its last
samples are dropped instead.  Here `(5, 6, 7)` delayed by one sample period is added to `(1, 1, 1)`:
the result is `(6, 7, 1)` and not `(1, 6, 7, 7)`. -/
theorem C25_later_signal_fails :
    let s : Dense := ⟨⟨1, 3, fun _ _ => 1⟩, 1, 0⟩
    let v : Dense := ⟨⟨1, 3, fun _ n => 5 + n⟩, 1, 1⟩
    ∃ r, s.superimpose v = .ok r ∧ r.a.N = 3 ∧
      r.a.get 0 0 = 6 ∧ r.a.get 0 1 = 7 ∧ r.a.get 0 2 = 1 := by
  intro s v
  have hp : pyRound ((v.delay - s.delay) * v.rate) = 1 := by norm_num [pyRound, s, v]
  have hal : s.aligned v = ⟨1, 2, v.a.x⟩ := by
    unfold Dense.aligned
    rw [if_pos (by norm_num [s, v]), if_neg (by norm_num [s, v]), hp]
    rfl
  obtain ⟨r, e1, e2, e3, e4⟩ := update_get (fun a b => a + b) s.a 0 s.a.M 0 2 ⟨1, 2, v.a.x⟩
    (le_refl _) (by norm_num [s]) rfl rfl
  refine ⟨{ s with a := r }, ?_, e3, ?_, ?_, ?_⟩
  · unfold Dense.superimpose
    rw [if_neg (by norm_num [s])]
    simp only [hal]
    rw [if_pos (by norm_num [s])]
    have e1' : s.a.addTo 0 s.a.M 0 2 ⟨1, 2, v.a.x⟩ = .ok r := e1
    simp only [bind, Except.bind, e1']
  · dsimp only; rw [e4]; norm_num [Arr.get, s, v]
  · dsimp only; rw [e4]; norm_num [Arr.get, s, v]
  · dsimp only; rw [e4]; norm_num [Arr.get, s, v]

/-- C25 fails for added signals with fewer, but more than one, streams: the call raises. -/
theorem C25_fewer_streams_fails (s v : Dense) (hs : 0 < s.a.M) (hn : 0 < s.a.N)
    (h1 : 1 < v.a.M) (h2 : v.a.M < s.a.M) (h3 : v.a.N ≤ s.a.N) (hd : s.delay = v.delay) :
    s.superimpose v = .error .value := by
  have hal : s.aligned v = v.a := by unfold Dense.aligned; rw [if_neg (by simpa using hd)]
  unfold Dense.superimpose
  rw [if_neg (by have := Nat.mul_pos hs hn; omega)]
  simp only [hal]
  rw [if_pos ⟨h2.le, h3⟩]
  simp only [bind, Except.bind, Arr.addTo, Arr.update]
  rw [if_neg (by simp; omega)]

/-- C25 fails for a single added stream: it is added to all streams. -/
theorem C25_single_stream_fails :
    let s : Dense := ⟨⟨2, 1, fun _ _ => 1⟩, 1, 0⟩
    let v : Dense := ⟨⟨1, 1, fun _ _ => 5⟩, 1, 0⟩
    ∃ r, s.superimpose v = .ok r ∧ r.a.get 0 0 = 6 ∧ r.a.get 1 0 = 6 := by
  intro s v
  refine ⟨⟨⟨2, 1, fun m n => if 0 ≤ m ∧ m < 2 ∧ 0 ≤ n ∧ n < 1 then 1 + 5 else 1⟩, 1, 0⟩, ?_, ?_, ?_⟩
  · simp [Dense.superimpose, Dense.aligned, s, v, Arr.addTo, Arr.update, bind, Except.bind]
  · norm_num [Arr.get]
  · norm_num [Arr.get]

example : (1 : ℚ) ≤ 2 ∧ pyRound ((2 - 1) * 3) = 3 := by norm_num [pyRound]

/-! ### C26 -/

/-- C26, samples: appending keeps the earlier samples and puts the new ones behind them. -/
theorem C26_append_samples (d v : Arr) (h : v.M = d.M) :
    ∃ r, d.appendSamples v = .ok r ∧ r.M = d.M ∧ r.N = d.N + v.N ∧
      ∀ m n, r.get m n = if n < d.N then d.get m n else v.get m (n - d.N) := by
  obtain ⟨r1, e1, e2, e3, e4⟩ := update_get (fun _ b => b) (Arr.zeros d.M (d.N + v.N)) 0 d.M 0 d.N d
    (le_refl _) (by simp [Arr.zeros]) (by omega) (by omega)
  obtain ⟨r2, f1, f2, f3, f4⟩ := update_get (fun _ b => b) r1 0 d.M d.N (d.N + v.N) v
    (by rw [e2]; exact le_refl _) (by rw [e3]; exact le_refl _) (by omega) (by omega)
  refine ⟨r2, ?_, by rw [f2, e2]; rfl, by rw [f3, e3]; rfl, fun m n => ?_⟩
  · unfold Arr.appendSamples Arr.put
    rw [e1]; simp only [bind, Except.bind]; exact f1
  · rw [f4, e4, zeros_get]
    simp only [Nat.sub_zero, Nat.zero_le, true_and]
    by_cases hn : n < d.N
    · rw [if_pos hn, if_neg (by omega)]
      split
      · rfl
      · unfold Arr.get; rw [if_neg (by omega)]
    · rw [if_neg hn]
      by_cases hm : m < d.M ∧ n < d.N + v.N
      · rw [if_pos (by omega)]
      · rw [if_neg (by omega), if_neg (by omega)]
        unfold Arr.get; rw [if_neg (by omega)]

/-- A history of appends, in order. -/
def appendAll (d : Arr) : List Arr → Except PyErr Arr
  | [] => .ok d
  | v :: vs => do
    let r ← d.appendSamples v
    appendAll r vs

/-- C26, histories: after any number of appends, the signal holds all pieces one after the other; in
particular, what matters is their concatenation only. -/
theorem C26_append_history (d : Arr) (vs : List Arr) (h : ∀ v ∈ vs, v.M = d.M) :
    ∃ r, appendAll d vs = .ok r ∧ r.M = d.M ∧ r.N = d.N + (vs.map (·.N)).sum ∧
      (∀ m n, n < d.N → r.get m n = d.get m n) ∧
      ∀ i v m n, vs[i]? = some v → n < v.N →
        r.get m (d.N + ((vs.take i).map (·.N)).sum + n) = v.get m n := by
  induction vs generalizing d with
  | nil => exact ⟨d, rfl, rfl, by simp, fun _ _ _ => rfl, by simp⟩
  | cons v vs ih =>
    obtain ⟨r1, e1, e2, e3, e4⟩ := C26_append_samples d v (h v (by simp))
    obtain ⟨r, f1, f2, f3, f4, f5⟩ := ih r1 (fun w hw => by rw [h w (by simp [hw]), e2])
    refine ⟨r, by simp only [appendAll, e1, bind, Except.bind, f1], by rw [f2, e2],
      by rw [f3, e3]; simp; omega, fun m n hn => ?_, ?_⟩
    · rw [f4 m n (by omega), e4, if_pos hn]
    · intro i w m n hw hn
      cases i with
      | zero =>
        obtain rfl : v = w := by simpa using hw
        simp only [List.take_zero, List.map_nil, List.sum_nil, Nat.add_zero]
        rw [f4 m _ (by omega), e4, if_neg (by omega), Nat.add_sub_cancel_left]
      | succ i =>
        have := f5 i w m n (by simpa using hw) hn
        rw [e3] at this
        simp only [List.take_succ_cons, List.map_cons, List.sum_cons]
        rw [← this]
        congr 1; omega

/-- C26, associativity of appending samples. -/
theorem C26_append_associative (a b c : Arr) (hb : b.M = a.M) (hc : c.M = a.M) :
    ∃ ab bc l r, a.appendSamples b = .ok ab ∧ ab.appendSamples c = .ok l ∧
      b.appendSamples c = .ok bc ∧ a.appendSamples bc = .ok r ∧ l.M = r.M ∧ l.N = r.N ∧
      ∀ m n, l.get m n = r.get m n := by
  obtain ⟨ab, e1, e2, e3, e4⟩ := C26_append_samples a b hb
  obtain ⟨l, f1, f2, f3, f4⟩ := C26_append_samples ab c (by omega)
  obtain ⟨bc, g1, g2, g3, g4⟩ := C26_append_samples b c (by omega)
  obtain ⟨r, k1, k2, k3, k4⟩ := C26_append_samples a bc (by omega)
  refine ⟨ab, bc, l, r, e1, f1, g1, k1, by omega, by omega, fun m n => ?_⟩
  rw [f4, e4, k4, g4]
  split_ifs <;> first | rfl | omega | (congr 1; omega)

/-- C26, streams: appending signals no longer than the first keeps the existing streams and adds the
new ones, padded by zeros.  Missing: longer signals, `C26_longer_streams_fails`. -/
theorem C26_append_streams_partial (d v : Arr) (h : v.N ≤ d.N) :
    ∃ r, d.appendStreams v = .ok r ∧ r.M = d.M + v.M ∧ r.N = d.N ∧
      ∀ m n, r.get m n = if m < d.M then d.get m n else v.get (m - d.M) n := by
  obtain ⟨r1, e1, e2, e3, e4⟩ := update_get (fun _ b => b) (Arr.zeros (d.M + v.M) d.N) 0 d.M 0 d.N d
    (by simp [Arr.zeros]) (le_refl _) (by omega) (by omega)
  obtain ⟨r2, f1, f2, f3, f4⟩ := update_get (fun _ b => b) r1 d.M (d.M + v.M) 0 v.N v
    (by rw [e2]; exact le_refl _) (by rw [e3]; exact h) (by omega) (by omega)
  refine ⟨r2, ?_, by rw [f2, e2]; rfl, by rw [f3, e3]; rfl, fun m n => ?_⟩
  · unfold Arr.appendStreams Arr.put
    rw [e1]; simp only [bind, Except.bind]; exact f1
  · rw [f4, e4, zeros_get]
    simp only [Nat.sub_zero, Nat.zero_le, true_and]
    by_cases hm : m < d.M
    · rw [if_pos hm, if_neg (by omega)]
      split
      · rfl
      · unfold Arr.get; rw [if_neg (by omega)]
    · rw [if_neg hm]
      by_cases hn : m < d.M + v.M ∧ n < v.N
      · rw [if_pos (by omega)]
      · rw [if_neg (by omega), if_neg (by omega)]
        unfold Arr.get; rw [if_neg (by omega)]

/-- C26 fails for longer signals: their streams cannot be appended. -/
theorem C26_longer_streams_fails (d v : Arr) (h : d.N < v.N) (h1 : v.N ≠ 1) :
    d.appendStreams v = .error .value := by
  obtain ⟨r1, e1, e2, e3, e4⟩ := update_get (fun _ b => b) (Arr.zeros (d.M + v.M) d.N) 0 d.M 0 d.N d
    (by simp [Arr.zeros]) (le_refl _) (by omega) (by omega)
  unfold Arr.appendStreams Arr.put
  rw [e1]
  simp only [bind, Except.bind, Arr.update]
  rw [if_neg]
  have : r1.N = d.N := e3
  omega

/-! ### Sparse appends -/

/-- `SparseSignal.append_samples` of blocks `v` with the same number of streams,
`signal_model.py` 2576-2598; a signal without blocks counts no streams, line 2578. -/
def sparseAppend {M : Nat} (bs v : List (Block M)) : Except PyErr (List (Block M)) :=
  if (if bs = [] then 0 else M) ≠ (if v = [] then 0 else M) then .error .value
  else .ok (bs ++ v.map fun b => { b with offset := b.offset + numSamples bs })

/-- C26 for sparse signals with blocks: the samples of the second signal follow the last sample of
the first. -/
theorem C26_sparse_append {M : Nat} (bs v : List (Block M)) (hb : WF bs) (hv : WF v) (hb0 : bs ≠ [])
    (hv0 : v ≠ []) :
    ∃ r, sparseAppend bs v = .ok r ∧ WF r ∧
      ∀ t, sumAt r t = if t < numSamples bs then sumAt bs t else sumAt v (t - numSamples bs) := by
  unfold sparseAppend
  rw [if_neg hb0, if_neg hv0, if_neg (by simp)]
  refine ⟨_, rfl, ?_, fun t => ?_⟩
  · refine List.pairwise_append.mpr ⟨hb, shift_wf v _ hv, ?_⟩
    intro a ha b hb'
    obtain ⟨c, _, rfl⟩ := List.mem_map.mp hb'
    have := stop_le_numSamples bs hb a ha
    dsimp only; omega
  · rw [sumAt_append, shift_at]
    by_cases h : t < numSamples bs
    · rw [if_pos h, if_neg (by omega), add_zero]
    · rw [if_neg h, if_pos (by omega), sumAt_eq_zero bs t (fun b hb' => by
        have := stop_le_numSamples bs hb b hb'
        right; omega), zero_add]

/-- C26 fails for sparse signals that end in zeros: those are not stored, so the samples appended to
`(1, 0)` directly follow the `1`. -/
theorem C26_sparse_trailing_zeros_fails :
    ∃ r, sparseAppend (fromDense [(![1] : Col 1), ![0]] 0) [⟨0, [![5]]⟩] = .ok r ∧
      sumAt r 1 = ![5] := by
  have h : nonzeroCols [(![1] : Col 1), ![0]] = [0] := by
    unfold nonzeroCols; simp [List.range_succ]
  have hf : fromDense [(![1] : Col 1), ![0]] 0 = [⟨0, [![1]]⟩] := by
    simp [fromDense, h, windows, winStarts, winStops, gaps]
  rw [hf]
  refine ⟨[⟨0, [![1]]⟩, ⟨1, [![5]]⟩], by simp [sparseAppend, numSamples, Block.stop], ?_⟩
  simp [sumAt, Block.at, numSamples, Block.stop]

/-! ### Interleaving -/

/-- Conversion of a float to an integer type (`astype`): truncation towards zero; values outside the
range of the type are not modelled. -/
noncomputable def truncInt (x : ℝ) : ℤ := if 0 ≤ x then ⌊x⌋ else ⌈x⌉

/-- `to_interleaved(scale=False)` of one stream, `signal_model.py` 1138-1148. -/
noncomputable def interleave (xs : List ℂ) : List ℤ := xs.flatMap fun z => [truncInt z.re, truncInt z.im]

/-- `FromInterleaved(scale=False)` of one stream, `signal_model.py` 1171-1176; an odd number of values
cannot be viewed as complex (`ValueError`). -/
def deinterleave : List ℤ → Except PyErr (List ℂ)
  | [] => .ok []
  | [_] => .error .value
  | a :: b :: r => do
    let t ← deinterleave r
    .ok (⟨a, b⟩ :: t)

theorem truncInt_int (k : ℤ) : truncInt k = k := by
  unfold truncInt; split <;> simp

/-- C26, interleaving: without scaling, every even-length integer stream survives conversion to a
signal and back. -/
theorem C26_interleaved_integers (ys : List ℤ) (h : ys.length % 2 = 0) :
    ∃ xs, deinterleave ys = .ok xs ∧ interleave xs = ys := by
  induction ys using deinterleave.induct with
  | case1 => exact ⟨[], rfl, rfl⟩
  | case2 => simp at h
  | case3 a b r ih =>
    obtain ⟨xs, e1, e2⟩ := ih (by simp at h; omega)
    refine ⟨⟨a, b⟩ :: xs, by simp [deinterleave, e1, bind, Except.bind], ?_⟩
    simp only [interleave] at e2 ⊢
    rw [List.flatMap_cons, e2]
    simp [truncInt_int]

/-- C26, interleaving: without scaling, signals with integer samples survive conversion and back. -/
theorem C26_interleaved_signal_partial (xs : List ℂ)
    (h : ∀ z ∈ xs, ∃ a b : ℤ, z = ⟨a, b⟩) : deinterleave (interleave xs) = .ok xs := by
  induction xs with
  | nil => rfl
  | cons z xs ih =>
    obtain ⟨a, b, rfl⟩ := h z (by simp)
    have := ih (fun w hw => h w (by simp [hw]))
    unfold interleave at this ⊢
    rw [List.flatMap_cons]
    simp [deinterleave, this, bind, Except.bind, truncInt_int]

/-- Maximum absolute value. -/
noncomputable def maxAbs (xs : List ℂ) : ℝ := (xs.map fun z => ‖z‖).foldr max 0

open Classical in
/-- `to_interleaved(scale=True)` of one stream to a type of largest value `K`, `signal_model.py`
1138-1148.  Numpy compares complex numbers by real, then imaginary part, so that the condition
`max > 1 or min < 1` is false only if every sample equals one. -/
noncomputable def interleaveScaled (K : ℕ) (xs : List ℂ) : List ℤ :=
  if 0 < xs.length ∧ ∃ z ∈ xs, z ≠ 1 then interleave (xs.map fun z => z / maxAbs xs * K)
  else interleave xs

/-- `FromInterleaved(scale=True)`, `signal_model.py` 1171-1176. -/
noncomputable def deinterleaveScaled (K : ℕ) (ys : List ℤ) : Except PyErr (List ℂ) := do
  let xs ← deinterleave ys
  .ok (xs.map fun z => z / K)

theorem truncInt_close (x : ℝ) : |x - truncInt x| < 1 := by
  unfold truncInt
  split
  · rw [abs_lt]
    constructor
    · have := Int.floor_le x; linarith
    · have := Int.lt_floor_add_one x; linarith
  · rw [abs_lt]
    constructor
    · have := Int.ceil_lt_add_one x; linarith
    · have := Int.le_ceil x; linarith

theorem deinterleave_interleave (xs : List ℂ) :
    deinterleave (interleave xs) = .ok (xs.map fun z => ⟨truncInt z.re, truncInt z.im⟩) := by
  induction xs with
  | nil => rfl
  | cons z xs ih =>
    unfold interleave at ih ⊢
    rw [List.flatMap_cons]
    simp [deinterleave, ih, bind, Except.bind]

/-- C26, scaled interleaving: unless all samples equal one, conversion and back returns the signal
divided by its peak magnitude, each component off by less than one quantisation step.  Signals of zeros
only are excluded, numpy's division by zero has no counterpart here.  The peak
itself is not restored, so the two conversions are inverse only up to scale and quantisation. -/
theorem C26_scaled_partial (K : ℕ) (hK : 0 < K) (xs : List ℂ) (h1 : ∃ z ∈ xs, z ≠ 1)
    (_h0 : ∃ z ∈ xs, z ≠ 0) :
    ∃ ys, deinterleaveScaled K (interleaveScaled K xs) = .ok ys ∧ ys.length = xs.length ∧
      ∀ (i : Nat) (z y : ℂ), xs[i]? = some z → ys[i]? = some y →
        |(z / maxAbs xs).re - y.re| < 1 / K ∧ |(z / maxAbs xs).im - y.im| < 1 / K := by
  have hlen : 0 < xs.length := by
    obtain ⟨z, hz, _⟩ := h1
    exact List.length_pos_of_mem hz
  have hKr : (0 : ℝ) < K := by exact_mod_cast hK
  unfold interleaveScaled deinterleaveScaled
  rw [if_pos ⟨hlen, h1⟩, deinterleave_interleave]
  refine ⟨_, rfl, by simp, ?_⟩
  intro i z y hz hy
  simp only [List.map_map, List.getElem?_map, hz, Option.map_some, Function.comp,
    Option.some.injEq] at hy
  subst hy
  have key : ∀ r : ℝ, |r - (truncInt (r * K) : ℝ) / K| < 1 / K := by
    intro r
    have h := truncInt_close (r * K)
    have : r - (truncInt (r * K) : ℝ) / K = (r * K - truncInt (r * K)) / K := by
      field_simp
    rw [this, abs_div, abs_of_pos hKr]
    exact div_lt_div_of_pos_right h hKr
  have hre : ∀ w : ℂ, (w * (K : ℂ)).re = w.re * K := by
    intro w; simp [Complex.mul_re]
  have him : ∀ w : ℂ, (w * (K : ℂ)).im = w.im * K := by
    intro w; simp [Complex.mul_im]
  have hdre : ∀ w : ℂ, (w / (K : ℂ)).re = w.re / K := by
    intro w
    rw [← Complex.ofReal_natCast, Complex.div_ofReal_re]
  have hdim : ∀ w : ℂ, (w / (K : ℂ)).im = w.im / K := by
    intro w
    rw [← Complex.ofReal_natCast, Complex.div_ofReal_im]
  rw [hdre, hdim, hre, him]
  exact ⟨key _, key _⟩

/-- C26 fails for a scaled signal of ones: it is not scaled on conversion, but is divided by the
largest integer on the way back. -/
theorem C26_scaled_ones_fails (K : ℕ) (n : Nat) :
    deinterleaveScaled K (interleaveScaled K (List.replicate n 1)) =
      .ok (List.replicate n (1 / (K : ℂ))) := by
  unfold interleaveScaled deinterleaveScaled
  rw [if_neg, deinterleave_interleave]
  · simp only [bind, Except.bind, List.map_replicate]
    have h1 : truncInt 1 = 1 := by have := truncInt_int 1; simpa using this
    have h0 : truncInt 0 = 0 := by have := truncInt_int 0; simpa using this
    have : (⟨((truncInt (1 : ℂ).re : ℤ) : ℝ), ((truncInt (1 : ℂ).im : ℤ) : ℝ)⟩ : ℂ) = 1 := by
      rw [Complex.one_re, Complex.one_im, h1, h0]
      apply Complex.ext <;> simp
    rw [this]
  · rintro ⟨_, z, hz, hne⟩
    exact hne (List.eq_of_mem_replicate hz)

example : ∀ z ∈ ([⟨3, -4⟩, ⟨0, 7⟩] : List ℂ), ∃ a b : ℤ, z = ⟨a, b⟩ := by
  intro z hz
  simp at hz
  rcases hz with rfl | rfl
  · exact ⟨3, -4, by simp⟩
  · exact ⟨0, 7, by simp⟩

end Verif.Signal
