import Verif.Channel.State
import Verif.Signal.Windows
import Mathlib.Analysis.SpecialFunctions.Pow.Real
import Mathlib.Tactic.Linarith

/-!
# Delay channels

`hermespy/channel/delay/delay.py`, `hermespy/channel/delay/random.py`,
`hermespy/channel/delay/spatial.py` and `amplitude_path_loss` of `hermespy/tools/math.py`.

Simplifications: the array response (delay/delay.py 79-100) is an arbitrary matrix; the speed of light is
a parameter; the number of delay samples `round(delay * bandwidth)` is taken from exact arithmetic
(`delaySamples`).
-/

namespace Verif.Channel.Delay

open Finset Verif.Channel.State

/-! ## Path gain -/

/-- `amplitude_path_loss`, tools/math.py 125-136, with speed of light `c0`. -/
noncomputable def pathLoss (c0 carrier distance : ℝ) : Except PyErr ℝ :=
  open Classical in
  if |carrier| = 0 then .error .value
  else .ok (c0 / |carrier| / (4 * Real.pi * distance))

/-- `DelayChannelSample`, delay/delay.py 45-55: delay, loss flag, power gain, and the carrier frequency
and bandwidth of its link state. -/
structure Sample where
  delay : ℝ
  loss : Bool
  gain : ℝ
  carrier : ℝ

/-- `__path_gain`, delay/delay.py 102-122. -/
noncomputable def pathGain (c0 : ℝ) (s : Sample) : Except PyErr ℝ :=
  open Classical in
  if s.loss = true then
    if s.carrier = 0 then .error .runtime
    else if 0 < s.delay then
      match pathLoss c0 s.carrier (s.delay * c0) with
      | .error e => .error e
      | .ok l => .ok (s.gain * l)
    else .ok s.gain
  else .ok s.gain

/-- `round(self.delay * self.bandwidth)`, delay/delay.py 127 and 155, for a delay that is not negative
(delay/random.py 171-178, a norm in delay/spatial.py 30-32). -/
def delaySamples (delay bandwidth : ℚ) : Nat := (Verif.Signal.pyRound (delay * bandwidth)).toNat

/-! ## One block -/

/-- `_propagate`, delay/delay.py 127-145: `D` zeros followed by `g * S @ x`.  The matrix product refuses
signals with another number of streams (`ValueError`), but line 364 of channel/channel.py has done so
before. -/
def propagate (rx tx D : Nat) (g : ℂ) (S : Nat → Nat → ℂ) (x : Sig ℂ) : Except PyErr (Sig ℂ) :=
  if x.streams ≠ tx then .error .value
  else .ok ⟨rx, D + x.len, fun r i =>
    if i < D then 0 else ∑ t ∈ range tx, g * S r t * x.val t (i - D)⟩

/-- `state`, delay/delay.py 155-172. -/
def state (rx tx D : Nat) (g : ℂ) (S : Nat → Nat → ℂ) (n maxTaps : Nat) : Except PyErr (Csi ℂ) :=
  create .impulse rx tx n (min (1 + D) maxTaps)
    (fun r t _ k => if D < maxTaps ∧ k = D then g * S r t else 0) none none

/-- C72: whenever the delay fits into the requested number of taps, the channel state of a sample
predicts the propagated signal: same streams, same length, same samples. -/
theorem C72_state (rx tx D : Nat) (g : ℂ) (S : Nat → Nat → ℂ) (x : Sig ℂ) (maxTaps : Nat)
    (hD : D < maxTaps) (hs : x.streams = tx) :
    ∃ (y z : Sig ℂ) (c : Csi ℂ), propagate rx tx D g S x = .ok y ∧
      state rx tx D g S x.len maxTaps = .ok c ∧ State.propagate c x = .ok z ∧
      y.streams = z.streams ∧ y.len = z.len ∧ ∀ r < rx, ∀ i < y.len, y.val r i = z.val r i := by
  have hmin : min (1 + D) maxTaps = 1 + D := by omega
  obtain ⟨z, hz, hzs, hzl, hzv⟩ := C69_propagate
    (⟨.impulse, rx, tx, x.len, 1 + D, fun r t _ k => if D < maxTaps ∧ k = D then g * S r t else 0,
      1 + D, 1 + D⟩ : Csi ℂ) x hs.ge (Or.inl le_rfl) (by dsimp only; omega)
  refine ⟨⟨rx, D + x.len, fun r i =>
    if i < D then 0 else ∑ t ∈ range tx, g * S r t * x.val t (i - D)⟩, z, _, ?_, ?_, hz, hzs.symm, ?_, ?_⟩
  · unfold propagate
    exact if_neg (by simpa using hs)
  · unfold state create
    rw [hmin]
    simp
  · rw [hzl]; dsimp only; omega
  · intro r hr i hi
    rw [hzv r hr i]
    dsimp only at hi ⊢
    have hsum : ∀ t ∈ range tx, (∑ k ∈ range (1 + D), if k ≤ i ∧ i < k + x.len then
        (if D < maxTaps ∧ k = D then g * S r t else 0) * x.val t (i - k) else 0) =
        if i < D then 0 else g * S r t * x.val t (i - D) := by
      intro t _
      rw [sum_pick (1 + D) D]
      · by_cases h : i < D
        · rw [if_neg (by omega), if_pos h]
        · rw [if_pos (by omega), if_pos ⟨hD, rfl⟩, if_neg h]
      · intro k _ hne
        by_cases h : k ≤ i ∧ i < k + x.len
        · rw [if_pos h, if_neg fun h' => hne h'.2, zero_mul]
        · rw [if_neg h]
      · omega
    rw [Finset.sum_congr rfl hsum]
    by_cases h : i < D
    · rw [if_pos h]
      simp [h]
    · rw [if_neg h]
      simp [h]

/-- Two by two antennas, a delay of three samples, eight taps. -/
example : ∃ x : Sig ℂ, x.streams = 2 ∧ x.len = 4 ∧ 3 < 8 ∧ x.val 1 2 ≠ 0 :=
  ⟨⟨2, 4, fun _ _ => 1⟩, rfl, rfl, by simp, by simp⟩

/-- C72: if the delay does not fit, the state is all zeros although the signal arrives. -/
theorem C72_taps (rx tx D : Nat) (g : ℂ) (S : Nat → Nat → ℂ) (n maxTaps : Nat) (hD : maxTaps ≤ D) :
    ∃ c : Csi ℂ, state rx tx D g S n maxTaps = .ok c ∧ c.inf = maxTaps ∧
      ∀ r t s k, c.st r t s k = 0 := by
  refine ⟨⟨.impulse, rx, tx, n, min (1 + D) maxTaps,
    fun r t _ k => if D < maxTaps ∧ k = D then g * S r t else 0, min (1 + D) maxTaps,
    min (1 + D) maxTaps⟩, ?_, ?_, ?_⟩
  · unfold state create
    simp
  · dsimp only; omega
  · intro r t s k
    exact if_neg (by omega)

/-- Four taps, a delay of seven samples: the state shows nothing. -/
example : ∃ c : Csi ℂ, state 1 1 7 1 (fun _ _ => 1) 5 4 = .ok c ∧ c.st 0 0 0 3 = 0 := by
  obtain ⟨c, hc, _, h⟩ := C72_taps 1 1 7 1 (fun _ _ => 1) 5 4 (by simp)
  exact ⟨c, hc, h 0 0 0 3⟩

/-! ## Energy -/

/-- C72, false of the code: the gain of a delay channel is documented as a linear *power* factor (and is
one for the ideal channel), but scales the amplitude.  Without propagation loss the energy a single
antenna link delivers is the square of the gain times the energy sent, which differs from the gain times
the energy for every gain other than zero and one and every signal with energy. -/
theorem C72_energy_fails (c0 delay gain carrier : ℝ) (D : Nat) (hg : gain ≠ 0) (hg1 : gain ≠ 1)
    (x : Sig ℂ) (hs : x.streams = 1)
    (hx : ∑ i ∈ range x.len, Complex.normSq (x.val 0 i) ≠ 0) :
    ∃ (g : ℝ) (y : Sig ℂ), pathGain c0 ⟨delay, false, gain, carrier⟩ = .ok g ∧
      propagate 1 1 D (g : ℂ) (fun _ _ => 1) x = .ok y ∧
      ∑ i ∈ range y.len, Complex.normSq (y.val 0 i) =
        gain ^ 2 * ∑ i ∈ range x.len, Complex.normSq (x.val 0 i) ∧
      ∑ i ∈ range y.len, Complex.normSq (y.val 0 i) ≠
        gain * ∑ i ∈ range x.len, Complex.normSq (x.val 0 i) := by
  have key : ∑ i ∈ range (D + x.len), Complex.normSq
      (if i < D then 0 else ∑ t ∈ range 1, (gain : ℂ) * 1 * x.val t (i - D)) =
        gain ^ 2 * ∑ i ∈ range x.len, Complex.normSq (x.val 0 i) := by
    rw [Finset.sum_range_add, Finset.mul_sum]
    have h0 : ∑ i ∈ range D, Complex.normSq
        (if i < D then 0 else ∑ t ∈ range 1, (gain : ℂ) * 1 * x.val t (i - D)) = 0 :=
      Finset.sum_eq_zero fun i hi => by rw [if_pos (Finset.mem_range.mp hi)]; simp
    rw [h0, zero_add]
    refine Finset.sum_congr rfl fun i _ => ?_
    rw [if_neg (by omega), Finset.sum_range_one, mul_one, Complex.normSq_mul, Complex.normSq_ofReal,
      Nat.add_sub_cancel_left]
    ring
  refine ⟨gain, ⟨1, D + x.len, fun r i =>
    if i < D then 0 else ∑ t ∈ range 1, (gain : ℂ) * 1 * x.val t (i - D)⟩, ?_, ?_, key, ?_⟩
  · unfold pathGain
    exact if_neg (by simp)
  · unfold propagate
    exact if_neg (by simpa using hs)
  · rw [key]
    intro h
    have h2 := mul_right_cancel₀ hx h
    have h3 : gain * (gain - 1) = 0 := by nlinarith
    rcases mul_eq_zero.mp h3 with h4 | h4
    · exact hg h4
    · exact hg1 (by linarith)

example : ∃ x : Sig ℂ, x.streams = 1 ∧ ∑ i ∈ range x.len, Complex.normSq (x.val 0 i) ≠ 0 :=
  ⟨⟨1, 2, fun _ _ => 1⟩, rfl, by simp⟩

/-- C72: free space propagation.  With the loss modelled and a carrier, the amplitude factor of a
delayed path is the gain times wavelength over 4π times the distance covered; doubling the delay halves
the amplitude. -/
theorem C72_loss (c0 : ℝ) (hc : 0 < c0) (s : Sample) (hl : s.loss = true) (hf : s.carrier ≠ 0)
    (hd : 0 < s.delay) :
    ∃ g : ℝ, pathGain c0 s = .ok g ∧
      g * (4 * Real.pi * s.delay * |s.carrier|) = s.gain ∧
      pathGain c0 { s with delay := 2 * s.delay } = .ok (g / 2) := by
  have hca : |s.carrier| ≠ 0 := by simpa using hf
  have hpi := Real.pi_pos
  refine ⟨s.gain * (c0 / |s.carrier| / (4 * Real.pi * (s.delay * c0))), ?_, ?_, ?_⟩
  · unfold pathGain pathLoss
    rw [if_pos hl, if_neg hf, if_pos hd, if_neg hca]
  · field_simp
  · unfold pathGain pathLoss
    dsimp only
    rw [if_pos hl, if_neg hf, if_pos (by linarith), if_neg hca]
    dsimp only
    congr 1
    field_simp

example : ∃ s : Sample, s.loss = true ∧ s.carrier ≠ 0 ∧ 0 < s.delay :=
  ⟨⟨1, true, 1, 1⟩, rfl, by norm_num, by norm_num⟩

/-- C72: a base band link with propagation loss is refused rather than left without loss. -/
theorem C72_baseband (c0 delay gain : ℝ) : pathGain c0 ⟨delay, true, gain, 0⟩ = .error .runtime := by
  unfold pathGain
  rw [if_pos rfl, if_pos rfl]

/-! ## Signals of several blocks -/

open Verif.Signal (Block Col)

/-- `propagate` applied to every block, channel/channel.py 370: the offset of a block stays
(delay/delay.py 142), its samples get the zeros of the delay in front.  Unit gain and response. -/
def delayBlocks {M : Nat} (D : Nat) (bs : List (Block M)) : List (Block M) :=
  bs.map fun b => ⟨b.offset, List.replicate D 0 ++ b.cols⟩

theorem delay_at {M : Nat} (D : Nat) (b : Block M) (t : Nat) :
    Block.at ⟨b.offset, List.replicate D 0 ++ b.cols⟩ t = if D ≤ t then b.at (t - D) else 0 := by
  unfold Block.at
  dsimp only
  by_cases h1 : b.offset ≤ t
  · rw [if_pos h1]
    by_cases h2 : D ≤ t - b.offset
    · rw [List.getElem?_append_right (by simpa using h2), List.length_replicate, if_pos (by omega),
        if_pos (by omega)]
      congr 2; omega
    · rw [List.getElem?_append_left (by simp; omega), List.getElem?_replicate, if_pos (by omega)]
      by_cases h3 : D ≤ t
      · rw [if_pos h3, if_neg (by omega)]; rfl
      · rw [if_neg h3]; rfl
  · rw [if_neg h1]
    by_cases h3 : D ≤ t
    · rw [if_pos h3, if_neg (by omega)]
    · rw [if_neg h3]

/-- C72: a signal whose blocks are at least the delay apart arrives delayed and otherwise unchanged: its
dense view exists and shows at every time the sample sent `D` samples before.  Missing: blocks closer
than the delay (`C72_blocks_fails`). -/
theorem C72_blocks_partial {M : Nat} (D : Nat) (bs : List (Block M))
    (h : bs.Pairwise fun a b => a.stop + D ≤ b.offset) :
    ∃ d e, Verif.Signal.toDense bs = .ok d ∧ Verif.Signal.toDense (delayBlocks D bs) = .ok e ∧
      ∀ t, Verif.Signal.sample e t = if D ≤ t then Verif.Signal.sample d (t - D) else 0 := by
  have hwf : Verif.Signal.WF bs := h.imp fun hab => by omega
  have hwf2 : Verif.Signal.WF (delayBlocks D bs) := by
    unfold delayBlocks Verif.Signal.WF
    rw [List.pairwise_map]
    refine h.imp fun {a b} hab => ?_
    unfold Block.stop at hab ⊢
    simp only [List.length_append, List.length_replicate]
    omega
  obtain ⟨d, hd, hdl, hdv⟩ := Verif.Signal.toDense_spec bs hwf
  obtain ⟨e, he, hel, hev⟩ := Verif.Signal.toDense_spec _ hwf2
  refine ⟨d, e, hd, he, fun t => ?_⟩
  rw [hev, hdv]
  clear hev hdv hd he h hwf hwf2 hdl hel
  induction bs with
  | nil => simp [delayBlocks, Verif.Signal.sumAt]
  | cons b rest ih =>
    have hc : ∀ (x : Block M) l t, Verif.Signal.sumAt (x :: l) t = x.at t + Verif.Signal.sumAt l t := by
      intro x l t
      simp [Verif.Signal.sumAt]
    have hd : delayBlocks D (b :: rest) =
        ⟨b.offset, List.replicate D 0 ++ b.cols⟩ :: delayBlocks D rest := rfl
    rw [hd, hc, hc, ih, delay_at]
    split <;> simp

/-- Blocks at 0 and 5 with a delay of 2. -/
example : ([⟨0, [1]⟩, ⟨5, [1, 1]⟩] : List (Block 1)).Pairwise fun a b => a.stop + 2 ≤ b.offset := by
  simp [Block.stop]

/-- C72, false of the code: of two blocks closer than the delay, the zeros put in front of the second
erase the delayed first.  Whatever is sent, the receiver sees silence where the first block arrives. -/
theorem C72_blocks_fails {M : Nat} (D o : Nat) (h1 : 1 ≤ o) (h2 : o ≤ D) (a b : Col M) :
    ∃ d e : List (Col M), Verif.Signal.toDense [⟨0, [a]⟩, ⟨o, [b]⟩] = .ok d ∧
      Verif.Signal.toDense (delayBlocks D [⟨0, [a]⟩, ⟨o, [b]⟩]) = .ok e ∧
      Verif.Signal.sample d 0 = a ∧ Verif.Signal.sample e D = 0 := by
  have hwf : Verif.Signal.WF ([⟨0, [a]⟩, ⟨o, [b]⟩] : List (Block M)) := by
    unfold Verif.Signal.WF
    simp [Block.stop]
    omega
  obtain ⟨d, hd, _, hdv⟩ := Verif.Signal.toDense_spec _ hwf
  have hlen : Verif.Signal.numSamples (delayBlocks D ([⟨0, [a]⟩, ⟨o, [b]⟩] : List (Block M))) =
      o + (D + 1) := by
    simp [delayBlocks, Verif.Signal.numSamples, Block.stop]
  refine ⟨d, (List.replicate D 0 ++ [a] ++ List.replicate (o - 1) 0).take o ++
    (List.replicate D 0 ++ [b]), hd, ?_, ?_, ?_⟩
  · unfold Verif.Signal.toDense
    rw [hlen]
    unfold delayBlocks
    simp only [List.map_cons, List.map_nil, Verif.Signal.assignAll, Verif.Signal.assign,
      List.length_append, List.length_replicate, List.length_cons, List.length_nil, bind, Except.bind]
    rw [if_pos (by omega)]
    dsimp only
    rw [if_pos (by simp; omega)]
    simp only [List.take_zero, List.nil_append, List.drop_replicate]
    congr 1
    have hd1 : o + (D + 1) - (0 + (D + (0 + 1))) = o := by omega
    rw [hd1]
    have ht : (List.replicate D (0 : Col M) ++ [a] ++ List.replicate o 0).take o =
        (List.replicate D 0 ++ [a] ++ List.replicate (o - 1) 0).take o := by
      rw [List.append_assoc, List.append_assoc, List.take_append_of_le_length (by simpa using h2),
        List.take_append_of_le_length (by simpa using h2)]
    rw [ht, List.drop_eq_nil_of_le (by simp; omega), List.append_nil]
  · rw [hdv]
    have : ¬ o = 0 := by omega
    simp [Verif.Signal.sumAt, Block.at, this]
  · unfold Verif.Signal.sample
    have hl : ((List.replicate D (0 : Col M) ++ [a] ++ List.replicate (o - 1) 0).take o).length = o := by
      simp; omega
    rw [List.getElem?_append_right (by omega), hl, List.getElem?_append_left (by simp; omega),
      List.getElem?_replicate, if_pos (by omega)]
    rfl

example : (1 : Nat) ≤ 2 ∧ 2 ≤ 3 ∧ (fun _ => 1 : Col 1) ≠ 0 :=
  ⟨by simp, by simp, fun h => by simpa using congrFun h 0⟩

/-! ## Random delays -/

/-- A value assigned to `RandomDelayChannel.delay`: a float, a tuple, or anything else. -/
inductive Value
  | scalar (v : ℝ)
  | limits (l : List ℝ)
  | other

/-- The stored delay, delay/random.py 110. -/
inductive Setting
  | constant (v : ℝ)
  | range (lo hi : ℝ)

/-- `RandomDelayChannel.delay` setter, delay/random.py 168-189. -/
noncomputable def assign (old : Setting) (v : Value) : Setting × Except PyErr Unit :=
  open Classical in
  match v with
  | .scalar v => if v < 0 then (old, .error .value) else (.constant v, .ok ())
  | .limits [lo, hi] =>
    if lo < 0 ∨ hi < 0 then (old, .error .value)
    else if hi < lo then (old, .error .value)
    else (.range lo hi, .ok ())
  | .limits _ => (old, .error .value)
  | .other => (old, .error .value)

/-- `_sample`, delay/random.py 65-84: `u` is the value of the uniform variable at the positions. -/
def sampleDelay (s : Setting) (u : ℝ) : ℝ :=
  match s with
  | .constant v => v
  | .range lo hi => lo + (hi - lo) * u

/-- Values a user may expect from the assignment that stays in force. -/
def Allowed (s : Setting) (d : ℝ) : Prop :=
  match s with
  | .constant v => d = v ∧ 0 ≤ d
  | .range lo hi => lo ≤ d ∧ d ≤ hi ∧ 0 ≤ d

/-- C72: after any sequence of assignments, refused ones included, every sampled delay lies in the
configured range and is not negative. -/
theorem C72_range (v : ℝ) (hv : 0 ≤ v) (l : List Value) (u : ℝ) (h0 : 0 ≤ u) (h1 : u ≤ 1) :
    Allowed (l.foldl (fun s v => (assign s v).1) (.constant v))
      (sampleDelay (l.foldl (fun s v => (assign s v).1) (.constant v)) u) := by
  have key : ∀ (l : List Value) (s : Setting), Allowed s (sampleDelay s u) →
      Allowed (l.foldl (fun s v => (assign s v).1) s)
        (sampleDelay (l.foldl (fun s v => (assign s v).1) s) u) := by
    intro l
    induction l with
    | nil => exact fun s h => h
    | cons w rest ih =>
      intro s h
      rw [List.foldl_cons]
      refine ih _ ?_
      unfold assign
      split
      · split
        · exact h
        · rename_i h'
          exact ⟨rfl, not_lt.mp h'⟩
      · split
        · exact h
        · split
          · exact h
          · rename_i lo hi h2 h3
            push Not at h2 h3
            have h4 : 0 ≤ (hi - lo) * u := mul_nonneg (by linarith) h0
            have h5 : (hi - lo) * u ≤ (hi - lo) * 1 := mul_le_mul_of_nonneg_left h1 (by linarith)
            refine ⟨?_, ?_, ?_⟩ <;> simp only [sampleDelay] <;> linarith
      · exact h
      · exact h
  exact key l _ ⟨rfl, hv⟩

example : sampleDelay ((assign (.constant 1) (.limits [2, 4])).1) (1 / 2) = 3 := by
  unfold assign sampleDelay
  norm_num

/-- C72: assignments are accepted exactly for floats that are not negative and ordered pairs of such,
and a refused assignment changes nothing. -/
theorem C72_setter (old : Setting) (v : Value) :
    ((assign old v).2 = .ok () ↔ (∃ d, v = .scalar d ∧ 0 ≤ d) ∨
      ∃ lo hi, v = .limits [lo, hi] ∧ 0 ≤ lo ∧ lo ≤ hi) ∧
    ((assign old v).2 ≠ .ok () → (assign old v).1 = old) := by
  unfold assign
  constructor
  · split
    · rename_i d
      by_cases h : d < 0
      · rw [if_pos h]; simp [h]
      · rw [if_neg h]; simpa using h
    · rename_i lo hi
      by_cases h : lo < 0 ∨ hi < 0
      · rw [if_pos h]
        simp only [reduceCtorEq, false_iff]
        rintro (⟨d, h', _⟩ | ⟨a, b, h', h2, h3⟩)
        · cases h'
        · cases h'
          rcases h with h | h <;> linarith
      · rw [if_neg h]
        push Not at h
        by_cases h4 : hi < lo
        · rw [if_pos h4]
          simp only [reduceCtorEq, false_iff]
          rintro (⟨d, h', _⟩ | ⟨a, b, h', h2, h3⟩)
          · cases h'
          · cases h'
            linarith
        · rw [if_neg h4]
          simp only [true_iff]
          exact Or.inr ⟨lo, hi, rfl, h.1, not_lt.mp h4⟩
    · rename_i l hl
      simp only [reduceCtorEq, false_iff]
      rintro (⟨d, h', _⟩ | ⟨a, b, h', _⟩)
      · cases h'
      · cases h'
        exact hl a b rfl
    · simp
  · split
    · split <;> simp
    · split
      · simp
      · split <;> simp
    · simp
    · simp

end Verif.Channel.Delay
