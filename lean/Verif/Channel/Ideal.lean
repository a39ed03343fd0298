import Verif.Channel.State
import Mathlib.Analysis.SpecialFunctions.Pow.Real
import Mathlib.Tactic.Linarith

/-!
# Ideal channel

`hermespy/channel/ideal.py` together with the wrapper `ChannelSample.propagate` of
`hermespy/channel/channel.py`.

The samples of a transmitted signal live in an array the channel may write to, so a propagation returns
the transmitted block after the call beside its outcome.  Meta data of signals (sampling rate, carrier
frequency, noise power, delay) is not modelled.
-/

namespace Verif.Channel.Ideal

open Finset Verif.Channel.State

/-- `IdealChannelSample`, channel/ideal.py 33-48: antennas of receiver and transmitter and the power
gain. -/
structure Sample where
  rx : Nat
  tx : Nat
  gain : ℝ

/-- A signal block and whether numpy may write to it.  Blocks built from `bytes`, as by channel/ideal.py
116-121, are read-only (core/signal_model.py 424); the block of a dense signal is a view of its own
array (core/signal_model.py 1305). -/
structure Block where
  sig : Sig ℂ
  writable : Bool

/-- Spatial response of `state`, channel/ideal.py 58-74. -/
def response (s : Sample) (r t : Nat) : ℂ :=
  if s.rx = 1 then 1
  else if s.tx = 1 then 1
  else if r = t then 1 else 0

/-- `IdealChannelSample.state`, channel/ideal.py 76-82. -/
noncomputable def state (s : Sample) (n : Nat) : Except PyErr (Csi ℂ) :=
  create .impulse s.rx s.tx n 1 (fun r t _ _ => response s r t * (Real.sqrt s.gain : ℂ)) none none

/-- `IdealChannelSample._propagate`, channel/ideal.py 85-121.  Only in the last case, with at least as
many transmit as receive antennas, `signal[:rx]` is a view, so that line 115 writes to the signal. -/
noncomputable def propagateBlock (s : Sample) (b : Block) : Block × Except PyErr (Sig ℂ) :=
  let a : ℂ := (Real.sqrt s.gain : ℂ)
  if s.tx = 1 then (b, .ok ⟨s.rx, b.sig.len, fun _ i => b.sig.val 0 i * a⟩)
  else if s.rx = 1 then
    (b, .ok ⟨s.rx, b.sig.len, fun _ i => (∑ t ∈ range b.sig.streams, b.sig.val t i) * a⟩)
  else if s.rx = 0 then (b, .ok ⟨s.rx, b.sig.len, fun _ _ => 0⟩)
  else if s.tx < s.rx then
    (b, .ok ⟨s.rx, b.sig.len, fun r i => (if r < s.tx then b.sig.val r i else 0) * a⟩)
  else if b.writable then
    let v := fun r i => if r < s.rx then b.sig.val r i * a else b.sig.val r i
    (⟨⟨b.sig.streams, b.sig.len, v⟩, true⟩, .ok ⟨s.rx, b.sig.len, v⟩)
  else (b, .error .value)

/-- `ChannelSample.propagate`, channel/channel.py 352-379, of a signal made of a single block. -/
noncomputable def propagate (s : Sample) (b : Block) : Block × Except PyErr (Sig ℂ) :=
  open Classical in
  if s.gain ≤ 0 then (b, .ok ⟨s.rx, 0, fun _ _ => 0⟩)
  else if b.sig.streams ≠ s.tx then (b, .error .value)
  else propagateBlock s b

theorem propagate_eq (s : Sample) (b : Block) (hg : 0 < s.gain) (hs : b.sig.streams = s.tx) :
    propagate s b = propagateBlock s b := by
  unfold propagate
  rw [if_neg (not_le.mpr hg), if_neg (by simpa using hs)]

/-- What the ideal channel is meant to do: sample `i` of receive stream `r` is the response applied to
the transmit streams. -/
theorem block_val (s : Sample) (b : Block) (hs : b.sig.streams = s.tx)
    (hw : b.writable = true) :
    ∃ y : Sig ℂ, (propagateBlock s b).2 = .ok y ∧ y.streams = s.rx ∧ y.len = b.sig.len ∧
      ∀ r < s.rx, ∀ i, y.val r i =
        ∑ t ∈ range s.tx, response s r t * (Real.sqrt s.gain : ℂ) * b.sig.val t i := by
  unfold propagateBlock response
  dsimp only
  by_cases h1 : s.tx = 1
  · rw [if_pos h1]
    refine ⟨_, rfl, rfl, rfl, fun r _ i => ?_⟩
    rw [h1, Finset.sum_range_one]
    by_cases h2 : s.rx = 1
    · rw [if_pos h2]; ring
    · rw [if_neg h2, if_pos rfl]; ring
  · rw [if_neg h1]
    by_cases h2 : s.rx = 1
    · rw [if_pos h2]
      refine ⟨_, rfl, rfl, rfl, fun r _ i => ?_⟩
      dsimp only
      rw [hs, Finset.sum_mul]
      refine Finset.sum_congr rfl fun t _ => ?_
      rw [if_pos h2]; ring
    · rw [if_neg h2]
      by_cases h3 : s.rx = 0
      · rw [if_pos h3]
        exact ⟨_, rfl, rfl, rfl, fun r hr => by omega⟩
      · rw [if_neg h3]
        have hsum : ∀ r i, ∑ t ∈ range s.tx, (if s.rx = 1 then 1 else if s.tx = 1 then 1
            else if r = t then (1 : ℂ) else 0) * (Real.sqrt s.gain : ℂ) * b.sig.val t i =
            if r < s.tx then b.sig.val r i * (Real.sqrt s.gain : ℂ) else 0 := by
          intro r i
          by_cases hr : r < s.tx
          · rw [sum_pick s.tx r, if_neg h2, if_neg h1, if_pos rfl, if_pos hr]
            · ring
            · intro t _ hne
              rw [if_neg h2, if_neg h1, if_neg (Ne.symm hne)]; ring
            · omega
          · rw [if_neg hr]
            refine Finset.sum_eq_zero fun t ht => ?_
            have := Finset.mem_range.mp ht
            rw [if_neg h2, if_neg h1, if_neg (by omega)]; ring
        by_cases h4 : s.tx < s.rx
        · rw [if_pos h4]
          refine ⟨_, rfl, rfl, rfl, fun r _ i => ?_⟩
          dsimp only
          rw [hsum]
          split <;> simp
        · rw [if_neg h4, if_pos hw]
          refine ⟨_, rfl, rfl, rfl, fun r hr i => ?_⟩
          dsimp only
          rw [hsum, if_pos hr, if_pos (by omega)]

/-- C71: for every number of antennas and every positive gain, a signal propagated over a sample of the
ideal channel is what the channel state of that sample predicts: propagating the same signal over
`state` gives the same streams, length and samples.  Missing: signals whose samples cannot be written to
(`C71_readonly_fails`). -/
theorem C71_state_partial (s : Sample) (b : Block) (hg : 0 < s.gain) (hs : b.sig.streams = s.tx)
    (hw : b.writable = true) :
    ∃ (y z : Sig ℂ) (c : Csi ℂ), (propagate s b).2 = .ok y ∧ state s b.sig.len = .ok c ∧
      State.propagate c b.sig = .ok z ∧ y.streams = z.streams ∧ y.len = z.len ∧
      ∀ r < s.rx, ∀ i < y.len, y.val r i = z.val r i := by
  obtain ⟨y, hy, hys, hyl, hyv⟩ := block_val s b hs hw
  obtain ⟨z, hz, hzs, hzl, hzv⟩ := C69_propagate
    (⟨.impulse, s.rx, s.tx, b.sig.len, 1, fun r t _ _ => response s r t * (Real.sqrt s.gain : ℂ), 1, 1⟩ :
      Csi ℂ) b.sig hs.ge (Or.inl le_rfl) (by simp)
  refine ⟨y, z, _, by rw [propagate_eq s b hg hs]; exact hy, rfl, hz, hys.trans hzs.symm, ?_, ?_⟩
  · rw [hyl, hzl]; simp
  · intro r hr i hi
    rw [hyv r hr i, hzv r hr i]
    refine Finset.sum_congr rfl fun t _ => ?_
    rw [Finset.sum_range_one, if_pos ⟨Nat.zero_le _, by omega⟩]
    simp

/-- Three transmit and two receive antennas with a gain of four. -/
example : ∃ (s : Sample) (b : Block), 0 < s.gain ∧ b.sig.streams = s.tx ∧ b.writable = true :=
  ⟨⟨2, 3, 4⟩, ⟨⟨3, 5, fun t i => (t + i : ℂ)⟩, true⟩, by norm_num, rfl, rfl⟩

/-- C71: between single antennas the energy of a signal scales with the channel gain. -/
theorem C71_energy (g : ℝ) (hg : 0 < g) (b : Block) (hs : b.sig.streams = 1) :
    ∃ y : Sig ℂ, (propagate ⟨1, 1, g⟩ b).2 = .ok y ∧ y.len = b.sig.len ∧
      ∑ i ∈ range y.len, Complex.normSq (y.val 0 i) =
        g * ∑ i ∈ range b.sig.len, Complex.normSq (b.sig.val 0 i) := by
  rw [propagate_eq ⟨1, 1, g⟩ b hg hs]
  refine ⟨⟨1, b.sig.len, fun _ i => b.sig.val 0 i * (Real.sqrt g : ℂ)⟩,
    by unfold propagateBlock; rw [if_pos rfl], rfl, ?_⟩
  dsimp only
  rw [Finset.mul_sum]
  refine Finset.sum_congr rfl fun i _ => ?_
  rw [Complex.normSq_mul, Complex.normSq_ofReal, Real.mul_self_sqrt hg.le, mul_comm]

example : ∃ b : Block, b.sig.streams = 1 ∧ b.sig.len = 3 := ⟨⟨⟨1, 3, fun _ _ => 1⟩, true⟩, rfl, rfl⟩

/-- C71: with a single transmit antenna, at most one receive antenna, or more receive than transmit
antennas, propagation leaves the transmitted signal alone.  Missing: the remaining antenna
configurations, for which it is false (`C71_transmitted_fails`). -/
theorem C71_transmitted_partial (s : Sample) (b : Block)
    (h : s.tx = 1 ∨ s.rx ≤ 1 ∨ s.tx < s.rx) : (propagate s b).1 = b := by
  unfold propagate
  split
  · rfl
  · split
    · rfl
    · unfold propagateBlock
      dsimp only
      split
      · rfl
      · split
        · rfl
        · split
          · rfl
          · split
            · rfl
            · omega

example : (propagate ⟨3, 2, 4⟩ ⟨⟨2, 1, fun _ _ => 1⟩, true⟩).1.sig.val 0 0 = 1 := by
  rw [C71_transmitted_partial _ _ (by simp)]

/-- C71, false of the code: between several antennas, with at least as many at the transmitter as at the
receiver, propagation scales the *transmitted* signal.  The next propagation of the same signal, e.g. to
the next receiver of the scenario, applies the gain on top of it. -/
theorem C71_transmitted_fails (rx tx : Nat) (h1 : 2 ≤ rx) (h2 : rx ≤ tx) (g : ℝ) (hg : 0 < g)
    (b : Block) (hs : b.sig.streams = tx) (hw : b.writable = true) (r : Nat) (hr : r < rx) (i : Nat) :
    ∃ y z : Sig ℂ, (propagate ⟨rx, tx, g⟩ b).2 = .ok y ∧
      (propagate ⟨rx, tx, g⟩ (propagate ⟨rx, tx, g⟩ b).1).2 = .ok z ∧
      (propagate ⟨rx, tx, g⟩ b).1.sig.val r i = (Real.sqrt g : ℂ) * b.sig.val r i ∧
      y.val r i = (Real.sqrt g : ℂ) * b.sig.val r i ∧ z.val r i = (g : ℂ) * b.sig.val r i := by
  have key : ∀ b : Block, b.sig.streams = tx → b.writable = true →
      propagate ⟨rx, tx, g⟩ b =
        (⟨⟨b.sig.streams, b.sig.len, fun r i => if r < rx then b.sig.val r i * (Real.sqrt g : ℂ)
            else b.sig.val r i⟩, true⟩,
          .ok ⟨rx, b.sig.len, fun r i => if r < rx then b.sig.val r i * (Real.sqrt g : ℂ)
            else b.sig.val r i⟩) := by
    intro b hs hw
    rw [propagate_eq ⟨rx, tx, g⟩ b hg hs]
    unfold propagateBlock
    dsimp only
    rw [if_neg (by omega), if_neg (by omega), if_neg (by omega), if_neg (by omega), if_pos hw]
  rw [key b hs hw]
  dsimp only
  rw [key _ (by exact hs) (by rfl)]
  refine ⟨_, _, rfl, rfl, ?_, ?_, ?_⟩
  · rw [if_pos hr]; ring
  · dsimp only
    rw [if_pos hr]; ring
  · dsimp only
    rw [if_pos hr, if_pos hr, mul_assoc, ← Complex.ofReal_mul, Real.mul_self_sqrt hg.le, mul_comm]

example : ∃ b : Block, b.sig.streams = 2 ∧ b.writable = true ∧ b.sig.val 0 0 ≠ 0 :=
  ⟨⟨⟨2, 1, fun _ _ => 1⟩, true⟩, rfl, rfl, by simp⟩

/-- C71, false of the code: in the same antenna configurations a signal whose samples are read-only, such
as the blocks of a sparse signal that already passed a channel, cannot be propagated at all. -/
theorem C71_readonly_fails (rx tx : Nat) (h1 : 2 ≤ rx) (h2 : rx ≤ tx) (g : ℝ) (hg : 0 < g)
    (b : Block) (hs : b.sig.streams = tx) (hw : b.writable = false) :
    (propagate ⟨rx, tx, g⟩ b).2 = .error .value := by
  rw [propagate_eq ⟨rx, tx, g⟩ b hg hs]
  unfold propagateBlock
  dsimp only
  rw [if_neg (by omega), if_neg (by omega), if_neg (by omega), if_neg (by omega), if_neg (by simp [hw])]

end Verif.Channel.Ideal
