import Verif.Signal.Sparse

/-!
# C22, C23: slicing and delayed superposition
-/

namespace Verif.Signal

variable {M M' : Nat}

/-- Value at `k` of an optional block. -/
def optAt (b : Option (Block M)) (k : Nat) : Col M := (b.map fun b => b.at k).getD 0

theorem sumAt_filterMap (f : Block M → Option (Block M')) (bs : List (Block M)) (k : Nat) :
    sumAt (bs.filterMap f) k = (bs.map fun b => optAt (f b) k).sum := by
  induction bs with
  | nil => rfl
  | cons b bs ih =>
    rw [List.filterMap_cons, List.map_cons, List.sum_cons, ← ih]
    cases hf : f b with
    | none => simp [optAt]
    | some c => simp [optAt, sumAt]

theorem sliceBlock_at (sel : Fin M' → Fin M) (start stop step : Nat) (hs : step = 1 ∨ step = 2)
    (b : Block M) (k : Nat) :
    optAt (sliceBlock sel (start : Int) (stop : Int) step b) k =
      if start + k * step < stop then fun m => b.at (start + k * step) (sel m) else 0 := by
  unfold sliceBlock
  by_cases h1 : (b.offset : Int) ≥ stop ∨ (b.stop : Int) ≤ start
  · rw [if_pos h1]
    simp only [optAt, Option.map_none, Option.getD_none]
    split
    · next h =>
      have : b.at (start + k * step) = 0 := by
        apply b.at_eq_zero
        rcases hs with rfl | rfl <;> omega
      rw [this]; rfl
    · rfl
  · rw [if_neg h1]
    simp only [optAt, Option.map_some, Option.getD_some]
    have hst : b.stop = b.offset + b.cols.length := rfl
    by_cases hin : start + k * step < stop ∧ b.offset ≤ start + k * step ∧ start + k * step < b.stop
    · rw [if_pos hin.1]
      unfold Block.at
      rw [if_pos (by rcases hs with rfl | rfl <;> dsimp only <;> omega), if_pos hin.2.1]
      dsimp only
      rw [List.getElem?_map, List.getElem?_range (by rcases hs with rfl | rfl <;> omega)]
      simp only [Option.map_some, Option.getD_some]
      funext m
      have hidx : ∀ i j : Nat, i = j → (b.cols[i]?).getD 0 (sel m) = (b.cols[j]?).getD 0 (sel m) := by
        rintro i _ rfl; rfl
      apply hidx
      rcases hs with rfl | rfl <;> omega
    · rw [Block.at_eq_zero _ _ (by
        simp only [Block.stop, List.length_map, List.length_range]
        rcases hs with rfl | rfl <;> omega)]
      split
      · next h =>
        rw [b.at_eq_zero _ (by rcases hs with rfl | rfl <;> omega)]; rfl
      · rfl

theorem sum_apply_sel (sel : Fin M' → Fin M) (l : List (Col M)) :
    (l.map fun c => (fun m => c (sel m) : Col M')).sum = fun m => l.sum (sel m) := by
  induction l with
  | nil => rfl
  | cons c l ih => rw [List.map_cons, List.sum_cons, ih, List.sum_cons]; rfl

/-- Slicing by step 1 or 2 selects the samples. -/
theorem getSlice_at (sel : Fin M' → Fin M) (start : Nat) (stop : Option Nat) (step : Nat)
    (hs : step = 1 ∨ step = 2) (bs : List (Block M)) (k : Nat) :
    sumAt (getSlice sel (some (start : Int)) (stop.map Int.ofNat) step bs) k =
      if start + k * step < stop.getD (numSamples bs)
      then fun m => sumAt bs (start + k * step) (sel m) else 0 := by
  have hstop : (stop.map Int.ofNat).getD (numSamples bs : Int) =
      ((stop.getD (numSamples bs) : Nat) : Int) := by cases stop <;> rfl
  rw [getSlice, sumAt_filterMap, hstop, Option.getD_some]
  simp only [sliceBlock_at sel start _ step hs]
  split
  · next h =>
    have := sum_apply_sel sel (bs.map fun b : Block M => b.at (start + k * step))
    rw [List.map_map] at this
    exact this
  · simp

theorem getSlice_wf (sel : Fin M' → Fin M) (start : Nat) (stop : Option Nat) (step : Nat)
    (hs : step = 1 ∨ step = 2) (bs : List (Block M)) (h : WF bs) :
    WF (getSlice sel (some (start : Int)) (stop.map Int.ofNat) step bs) := by
  unfold getSlice WF
  rw [List.pairwise_filterMap]
  refine h.imp ?_
  intro a b hab a' ha b' hb
  unfold sliceBlock at ha hb
  split at ha
  · simp at ha
  split at hb
  · simp at hb
  simp only [Option.some.injEq] at ha hb
  subst ha hb
  have hst : a.stop = a.offset + a.cols.length := rfl
  simp only [Block.stop, List.length_map, List.length_range] at *
  generalize (stop.map Int.ofNat).getD (numSamples bs : Int) = st at *
  simp only [Option.getD_some] at *
  rcases hs with rfl | rfl <;> omega

/-- C23 for non-negative bounds and a step of one or two: `signal[sel, start:stop:step]` of a
well-formed sparse signal is well formed, converts to a matrix, and its sample `k` is sample
`start + k·step` of the selected streams, as for the dense signal; it is zero at and beyond `stop`.
Missing for the full claim: steps above two and negative bounds, see `C23_step_three_fails`,
`C23_negative_bounds_fails`. -/
theorem C23_slice_partial (sel : Fin M' → Fin M) (start : Nat) (stop : Option Nat) (step : Nat)
    (hs : step = 1 ∨ step = 2) (bs : List (Block M)) (h : WF bs) (d : List (Col M))
    (hd : toDense bs = .ok d) :
    WF (getSlice sel (some (start : Int)) (stop.map Int.ofNat) step bs) ∧
    ∃ r, toDense (getSlice sel (some (start : Int)) (stop.map Int.ofNat) step bs) = .ok r ∧
      ∀ k m, sample r k m =
        if start + k * step < stop.getD d.length then sample d (start + k * step) (sel m) else 0 := by
  have hwf := getSlice_wf sel start stop step hs bs h
  obtain ⟨r, hr, _, hv⟩ := toDense_spec _ hwf
  obtain ⟨d', hd', hlen, hv'⟩ := toDense_spec _ h
  rw [hd] at hd'
  obtain rfl : d = d' := by simpa using hd'
  refine ⟨hwf, r, hr, fun k m => ?_⟩
  rw [hv k, getSlice_at sel start stop step hs bs k, hlen]
  split
  · rw [hv']
  · rfl

/-- C23 fails for a step of three: samples `0, 1, 2, 3` of which `signal[:, 0::3]` should return
`0, 3`; the code returns `2` (as sample zero) only. -/
theorem C23_step_three_fails :
    let bs : List (Block 1) := [⟨1, [![1], ![2], ![3]]⟩]
    sumAt bs 0 = ![0] ∧ sumAt bs 3 = ![3] ∧
      getSlice id none none 3 bs = [⟨0, [![2]]⟩] := by
  refine ⟨?_, ?_, ?_⟩
  · funext m; simp [sumAt, Block.at]
  · funext m; simp [sumAt, Block.at]
  · simp only [getSlice, numSamples, List.filterMap_cons, List.filterMap_nil, sliceBlock, Block.stop,
      List.getLast?_singleton]
    simp [List.range_succ]
    funext m; simp

/-- C23 fails for negative bounds, which Python slices count from the end: `signal[:, -1:]` of the
samples `1, 2` should return `2` but returns `0, 1, 2`, and `signal[:, :-1]`, which should return `1`,
returns nothing at all. -/
theorem C23_negative_bounds_fails :
    let bs : List (Block 1) := [⟨0, [![1], ![2]]⟩]
    getSlice id (some (-1)) none 1 bs = [⟨1, [![1], ![2]]⟩] ∧
      getSlice (M' := 1) id none (some (-1)) 1 bs = [] := by
  constructor
  · simp only [getSlice, numSamples, List.filterMap_cons, List.filterMap_nil, sliceBlock, Block.stop,
      List.getLast?_singleton]
    simp [List.range_succ]
    constructor <;> funext m <;> simp
  · simp [getSlice, sliceBlock, Block.stop]

example : WF ([⟨1, [![1, 2], ![0, 3]]⟩, ⟨5, [![7, 1]]⟩] : List (Block 2)) := by
  simp [WF, Block.stop]

/-! ### C22 -/

theorem shift_wf (bs : List (Block M)) (n : Nat) (h : WF bs) :
    WF (bs.map fun b => { b with offset := b.offset + n }) := by
  unfold WF
  rw [List.pairwise_map]
  exact h.imp fun {a b} hab => by simp only [Block.stop] at *; omega

theorem shift_at (bs : List (Block M)) (n t : Nat) :
    sumAt (bs.map fun b => { b with offset := b.offset + n }) t =
      if n ≤ t then sumAt bs (t - n) else 0 := by
  unfold sumAt
  rw [List.map_map]
  split
  · next h =>
    congr 1
    apply List.map_congr_left
    intro b _
    simp only [Function.comp, Block.at]
    by_cases hb : b.offset ≤ t - n
    · rw [if_pos hb, if_pos (by omega)]; congr 2; omega
    · rw [if_neg hb, if_neg (by omega)]
  · next h =>
    apply List.sum_eq_zero
    intro x hx
    obtain ⟨b, _, rfl⟩ := List.mem_map.mp hx
    simp only [Function.comp, Block.at]
    rw [if_neg (by omega)]

theorem addAligned_spec (s : Sparse M) (bs : List (Block M)) (hM : 0 < M) (hs : WF s.blocks)
    (hne : s.blocks ≠ []) (hb : WF bs) :
    ∃ r, s.addAligned bs = .ok r ∧ WF r.blocks ∧ r.rate = s.rate ∧ r.carrier = s.carrier ∧
      r.delay = s.delay ∧ ∀ t, sumAt r.blocks t = sumAt s.blocks t + sumAt bs t := by
  unfold Sparse.addAligned
  by_cases h : M = 0 ∨ bs.length = 0
  · rw [if_pos h]
    have : bs = [] := List.length_eq_zero_iff.mp (by omega)
    exact ⟨s, rfl, hs, rfl, rfl, rfl, fun t => by simp [this, sumAt]⟩
  · rw [if_neg h, if_neg (by simpa using hne)]
    obtain ⟨r, e1, e2, _, e4⟩ := superimposeBlocks_spec s.blocks bs hs hb
    exact ⟨{ s with blocks := r }, by simp only [e1, bind, Except.bind], e2, rfl, rfl, rfl, e4⟩

theorem sumAt_getSlice_one (n : Nat) (bs : List (Block M)) (h : WF bs) (t : Nat) :
    sumAt (getSlice id (some (n : Int)) none 1 bs) t = sumAt bs (n + t) := by
  have hg := getSlice_at id n none 1 (Or.inl rfl) bs t
  rw [Nat.mul_one] at hg
  refine hg.trans ?_
  split
  · rfl
  · next hn =>
    rw [sumAt_eq_zero bs _ (fun b hb => by
      have := stop_le_numSamples bs h b hb
      simp only [Option.getD_none] at hn
      right; omega)]

theorem sumAt_of_numSamples_zero (bs : List (Block M)) (h : WF bs) (h0 : numSamples bs = 0)
    (t : Nat) : sumAt bs t = 0 :=
  sumAt_eq_zero bs t fun b hb => by
    have := stop_le_numSamples bs h b hb
    right; omega

/-- Offset, in samples, of the added signal relative to the signal it is added to. -/
def shiftOf (s a : Sparse M) : ℤ :=
  if s.delay > a.delay then - pyRound ((s.delay - a.delay) * a.rate)
  else pyRound ((a.delay - s.delay) * a.rate)

/-- Value of a block list at an integer time, zero at negative times. -/
def valueAt (bs : List (Block M)) (t : ℤ) : Col M := if 0 ≤ t then sumAt bs t.toNat else 0

theorem pyRound_nonneg {x : ℚ} (h : 0 ≤ x) : 0 ≤ pyRound x := by
  have h0 : 0 ≤ ⌊x⌋ := Int.floor_nonneg.mpr h
  unfold pyRound
  dsimp only
  split_ifs <;> omega

theorem pyRound_zero : pyRound 0 = 0 := by norm_num [pyRound]

/-- C22 for a signal with at least one block: superimposing never fails, keeps rate, carrier and
delay, leaves the result well formed, and its sample `t` is the sum of both signals' samples at that
time, the second one displaced by the rounded delay difference.  Missing for the full claim: a
signal without blocks raises (`C22_empty_signal_fails`) and the argument may be changed
(`C22_argument_changed_fails`, otherwise see `C22_argument_partial`). -/
theorem C22_superimpose_partial (s a : Sparse M) (shared : Bool) (hM : 0 < M)
    (hs : WF s.blocks) (ha : WF a.blocks) (hne : s.blocks ≠ []) (hr : 0 ≤ a.rate) :
    ∃ r a', s.superimpose a shared = .ok (r, a') ∧ WF r.blocks ∧ r.rate = s.rate ∧
      r.carrier = s.carrier ∧ r.delay = s.delay ∧
      ∀ t : Nat, valueAt r.blocks t = valueAt s.blocks t + valueAt a.blocks (t - shiftOf s a) := by
  have hv : ∀ (bs : List (Block M)) (t : Nat), valueAt bs t = sumAt bs t := by
    intro bs t; simp [valueAt]
  unfold Sparse.superimpose shiftOf
  by_cases h1 : s.delay > a.delay
  · simp only [if_pos h1]
    have hn := pyRound_nonneg (x := (s.delay - a.delay) * a.rate)
      (mul_nonneg (by linarith) hr)
    generalize pyRound ((s.delay - a.delay) * a.rate) = n at hn
    obtain ⟨n, rfl⟩ := Int.eq_ofNat_of_zero_le hn
    simp only [Int.toNat_natCast, sub_neg_eq_add]
    have hg : WF (getSlice id (some (n : Int)) none 1 a.blocks) :=
      getSlice_wf id n none 1 (Or.inl rfl) a.blocks ha
    have hcalc : ∀ t : Nat, valueAt a.blocks ((t : ℤ) + n) =
        sumAt (getSlice id (some (n : Int)) none 1 a.blocks) t := by
      intro t
      rw [sumAt_getSlice_one n a.blocks ha t, ← Nat.cast_add, hv, Nat.add_comm]
    by_cases h0 : numSamples (getSlice (id : Fin M → Fin M) (some (n : Int)) none 1 a.blocks) = 0
    · rw [if_pos h0]
      refine ⟨s, a, rfl, hs, rfl, rfl, rfl, fun t => ?_⟩
      rw [hcalc, sumAt_of_numSamples_zero _ hg h0, add_zero]
    · rw [if_neg h0]
      obtain ⟨r, e1, e2, e3, e4, e5, e6⟩ := addAligned_spec s _ hM hs hne hg
      refine ⟨r, a, by rw [e1]; rfl, e2, e3, e4, e5, fun t => ?_⟩
      rw [hv, hv, e6, hcalc]
  · simp only [if_neg h1]
    have hd : 0 ≤ (a.delay - s.delay) * a.rate := mul_nonneg (by linarith) hr
    by_cases h2 : s.delay < a.delay
    · simp only [if_pos h2]
      have hn := pyRound_nonneg hd
      generalize pyRound ((a.delay - s.delay) * a.rate) = n at hn
      obtain ⟨n, rfl⟩ := Int.eq_ofNat_of_zero_le hn
      simp only [Int.toNat_natCast]
      obtain ⟨r, e1, e2, e3, e4, e5, e6⟩ := addAligned_spec s _ hM hs hne (shift_wf a.blocks n ha)
      refine ⟨r, _, by rw [e1]; rfl, e2, e3, e4, e5, fun t => ?_⟩
      rw [hv, hv, e6, shift_at, valueAt]
      by_cases hnt : n ≤ t
      · rw [if_pos hnt, if_pos (by omega)]; congr 2; omega
      · rw [if_neg hnt, if_neg (by omega)]
    · simp only [if_neg h2]
      have he : a.delay - s.delay = 0 := by linarith
      rw [he, zero_mul, pyRound_zero]
      obtain ⟨r, e1, e2, e3, e4, e5, e6⟩ := addAligned_spec s _ hM hs hne ha
      refine ⟨r, a, by rw [e1]; rfl, e2, e3, e4, e5, fun t => ?_⟩
      rw [sub_zero, hv, hv, hv, e6]

/-- C22: the added signal is left unchanged unless it is sparse and delayed relative to the first. -/
theorem C22_argument_partial (s a : Sparse M) (shared : Bool) (r a' : Sparse M)
    (h : s.superimpose a shared = .ok (r, a')) (hk : shared = false ∨ a.delay ≤ s.delay) :
    a' = a := by
  unfold Sparse.superimpose at h
  split at h
  · dsimp only at h
    split at h
    · simp only [Except.ok.injEq, Prod.mk.injEq] at h; exact h.2.symm
    · cases hx : s.addAligned (getSlice id
        (some ((pyRound ((s.delay - a.delay) * a.rate)).toNat : Int)) none 1 a.blocks) with
      | error e => rw [hx] at h; simp [bind, Except.bind] at h
      | ok v => rw [hx] at h; simp [bind, Except.bind] at h; exact h.2.symm
  · split at h
    · next h2 =>
      dsimp only at h
      cases hx : s.addAligned (a.blocks.map fun b => { b with offset := b.offset +
        (pyRound ((a.delay - s.delay) * a.rate)).toNat }) with
      | error e => rw [hx] at h; simp [bind, Except.bind] at h
      | ok v =>
        rw [hx] at h
        rcases hk with rfl | hk
        · simp [bind, Except.bind] at h; exact h.2.symm
        · exact absurd h2 (not_lt.mpr hk)
    · cases hx : s.addAligned a.blocks with
      | error e => rw [hx] at h; simp [bind, Except.bind] at h
      | ok v => rw [hx] at h; simp [bind, Except.bind] at h; exact h.2.symm

/-- C22 fails: superimposing a sparse signal that starts one sample later moves its own blocks by one
sample, so superimposing it a second time adds it at another time. -/
theorem C22_argument_changed_fails :
    let s : Sparse 1 := ⟨[⟨0, [![1]]⟩], 1, 0, 0⟩
    let a : Sparse 1 := ⟨[⟨0, [![5]]⟩], 1, 0, 1⟩
    ∃ r a', s.superimpose a true = .ok (r, a') ∧ a'.blocks = [⟨1, [![5]]⟩] := by
  intro s a
  have hp : pyRound ((a.delay - s.delay) * a.rate) = 1 := by norm_num [pyRound, s, a]
  obtain ⟨r, e1, _⟩ := addAligned_spec s (a.blocks.map fun b => { b with offset := b.offset + 1 })
    (by norm_num) (by simp [WF, s]) (by simp [s]) (by simp [WF, a])
  refine ⟨r, { a with blocks := a.blocks.map fun b => { b with offset := b.offset + 1 } }, ?_, rfl⟩
  unfold Sparse.superimpose
  rw [if_neg (by norm_num [s, a]), if_pos (by norm_num [s, a])]
  simp only [hp, Int.toNat_one, e1, bind, Except.bind, if_true]

/-- C22 fails for a signal without blocks, for example the sparse form of an all-zero matrix: every
superposition of samples onto it is refused. -/
theorem C22_empty_signal_fails (s a : Sparse M) (hM : 0 < M) (hs : s.blocks = [])
    (ha : a.blocks ≠ []) (hd : s.delay = a.delay) (shared : Bool) :
    s.superimpose a shared = .error .value := by
  unfold Sparse.superimpose
  rw [if_neg (by rw [hd]; exact lt_irrefl _), if_neg (by rw [hd]; exact lt_irrefl _)]
  unfold Sparse.addAligned
  rw [if_neg (by have : a.blocks.length ≠ 0 := by simpa using ha
                 omega), if_pos (by simp [hs])]
  rfl

example : WF ([⟨0, [![1]]⟩, ⟨3, [![1]]⟩] : List (Block 1)) := by simp [WF, Block.stop]

end Verif.Signal
