import Verif.Np
import Mathlib.Analysis.Complex.Basic
import Mathlib.Data.Complex.BigOperators
import Mathlib.Algebra.BigOperators.Fin
import Mathlib.Tactic.FieldSimp
import Mathlib.Tactic.LinearCombination
import Mathlib.Tactic.NormNum

/-!
# Symbols with channel state, Alamouti coding, combining and zero-forcing equalization

`modem/symbols.py`, `modem/precoding/space_time_block_coding.py`, `modem/precoding/ratio_combining.py`,
`modem/precoding/single_carrier.py`, `modem/waveform.py`.

numpy arrays are their shape together with an index function; only indices inside the shape are
meaningful.  Complex floats are complex numbers.
-/

namespace Verif.Precoding

open Complex ComplexConjugate

/-- `StatedSymbols`, `modem/symbols.py` 136-411: `raw[stream, block, symbol]` and
`states[rx, tx, block, symbol]`; the setter (361-381) forces the first, third and fourth dimension of
the states to be those of the symbols, so they are shared here. -/
structure Stated where
  streams : Nat
  tx : Nat
  blocks : Nat
  symbols : Nat
  raw : Nat → Nat → Nat → ℂ
  states : Nat → Nat → Nat → Nat → ℂ

/-- The output of `Alamouti.encode_symbols`, `space_time_block_coding.py` 69-77. -/
noncomputable def alamoutiEncoded (x : Stated) : Stated :=
  { streams := 2
    tx := x.tx
    blocks := x.blocks
    symbols := x.symbols
    -- output[0] = in; output[1, 0::2] = -in[1::2].conj(); output[1, 1::2] = in[0::2].conj()
    raw := fun s b k =>
      if s = 0 then x.raw 0 b k
      else if b % 2 = 0 then -conj (x.raw 0 (b + 1) k)
      else conj (x.raw 0 (b - 1) k)
    -- np.repeat(states, 2, axis=0)
    states := fun r t b k => x.states (r / 2) t b k }

/-- `Alamouti.encode_symbols`, `space_time_block_coding.py` 36-77. -/
noncomputable def alamoutiEncode (x : Stated) (numOutput : Nat) : Except PyErr Stated :=
  if x.streams ≠ 1 then .error .value
  else if numOutput ≠ 2 then .error .value
  else if x.blocks % 2 ≠ 0 then .error .value
  else .ok (alamoutiEncoded x)

/-- The output of `Alamouti.decode_symbols`, `space_time_block_coding.py` 100-123. -/
noncomputable def alamoutiDecoded (y : Stated) : Stated :=
  { streams := y.streams
    tx := 1
    blocks := y.blocks
    symbols := y.symbols
    raw := fun r b k =>
      -- channel_state = states[:, :2, 0::2, :], used for both blocks of a pair
      let e := 2 * (b / 2)
      let h0 := y.states r 0 e k
      let h1 := y.states r 1 e k
      let w : ℂ := ((‖h0‖ ^ 2 + ‖h1‖ ^ 2 : ℝ) : ℂ)
      if b % 2 = 0 then (conj h0 * y.raw r e k + h1 * conj (y.raw r (e + 1) k)) / w
      else (conj h0 * y.raw r (e + 1) k - h1 * conj (y.raw r e k)) / w
    states := fun _ _ _ _ => 1 }

/-- `Alamouti.decode_symbols`, `space_time_block_coding.py` 79-123. -/
noncomputable def alamoutiDecode (y : Stated) : Except PyErr Stated :=
  if y.blocks % 2 ≠ 0 then .error .value else .ok (alamoutiDecoded y)

/-- `MaximumRatioCombining.decode_symbols`, `ratio_combining.py` 28-54.  The reshapes to
`streams × (blocks*symbols)` and back only merge and split the last two indices. -/
noncomputable def mrcDecode (y : Stated) : Except PyErr Stated :=
  if y.tx ≠ 1 then .error .runtime
  else .ok
    { streams := 1
      tx := 1
      blocks := y.blocks
      symbols := y.symbols
      raw := fun _ b k =>
        (∑ r ∈ Finset.range y.streams, conj (y.states r 0 b k) * y.raw r b k) /
          ((∑ r ∈ Finset.range y.streams, ‖y.states r 0 b k‖ ^ 2 : ℝ) : ℂ)
      states := fun _ _ b k =>
        ((∑ r ∈ Finset.range y.streams, ‖y.states r 0 b k‖ ^ 2 : ℝ) : ℂ) }

/-- `SingleCarrier.decode_symbols`, `single_carrier.py` 26-50.  `sel b k` is
`antenna_selection = argmax |sum of states over tx|`; any selection rule is allowed here.
`take_along_axis` broadcasts the selection, repeated twice along the transmit axis, against the
states: one transmit stream is duplicated, two are kept, any other number cannot be broadcast
(`ValueError`; numpy raises `IndexError` on a broadcasting failure). -/
noncomputable def singleCarrierDecode (sel : Nat → Nat → Nat) (y : Stated) : Except PyErr Stated :=
  if y.tx = 1 ∨ y.tx = 2 then .ok
    { streams := 1
      tx := 2
      blocks := y.blocks
      symbols := y.symbols
      raw := fun _ b k => y.raw (sel b k) b k
      states := fun _ t b k => y.states (sel b k) (if y.tx = 1 then 0 else t) b k }
  else .error .index

/-- `ZeroForcingChannelEqualization.equalize_channel`, `modem/waveform.py` 238-250, branch for a
single stream: `raw / states.sum(axis=1)`. -/
noncomputable def zfSingle (y : Stated) (b k : Nat) : ℂ :=
  y.raw 0 b k / ∑ t ∈ Finset.range y.tx, y.states 0 t b k

/-- Noise-free reception of the transmitted streams `x` (with `x.streams` antennas) over a channel
`H[rx, tx, block, symbol]`, with perfect channel knowledge: the situation in which the decoders are
documented to work. -/
noncomputable def receive (numRx : Nat) (H : Nat → Nat → Nat → Nat → ℂ) (x : Stated) : Stated :=
  { streams := numRx
    tx := x.streams
    blocks := x.blocks
    symbols := x.symbols
    raw := fun r b k => ∑ t ∈ Finset.range x.streams, H r t b k * x.raw t b k
    states := H }

/-! ### C10 -/

theorem normSq_sum (a b : ℂ) : ((‖a‖ ^ 2 + ‖b‖ ^ 2 : ℝ) : ℂ) = conj a * a + b * conj b := by
  push_cast
  rw [← Complex.conj_mul' a, ← Complex.mul_conj' b]

/-- C10: noise-free Alamouti round trip, for every even number of blocks, every number of symbols per
block, every number of receive antennas, and every channel constant over each pair of blocks. Each
receive antenna with a non-vanishing channel recovers the original symbols. -/
theorem C10_round_trip (x : Stated) (hx : x.streams = 1) (he : x.blocks % 2 = 0)
    (numRx : Nat) (H : Nat → Nat → Nat → Nat → ℂ)
    (hH : ∀ r t p k, H r t (2 * p + 1) k = H r t (2 * p) k) :
    ∃ enc dec, alamoutiEncode x 2 = .ok enc ∧ enc.streams = 2 ∧ enc.blocks = x.blocks ∧
      enc.symbols = x.symbols ∧
      alamoutiDecode (receive numRx H enc) = .ok dec ∧
      dec.streams = numRx ∧ dec.blocks = x.blocks ∧ dec.symbols = x.symbols ∧ dec.tx = 1 ∧
      ∀ r b k, r < numRx → b < x.blocks → k < x.symbols →
        (H r 0 b k ≠ 0 ∨ H r 1 b k ≠ 0) →
        dec.raw r b k = x.raw 0 b k ∧ dec.states r 0 b k = 1 := by
  refine ⟨alamoutiEncoded x, alamoutiDecoded (receive numRx H (alamoutiEncoded x)),
    by simp [alamoutiEncode, hx, he], rfl, rfl, rfl, by simp [alamoutiDecode, receive, alamoutiEncoded, he],
    rfl, rfl, rfl, rfl, ?_⟩
  intro r b k _ _ _ hne
  refine ⟨?_, rfl⟩
  have hb : b = 2 * (b / 2) ∨ b = 2 * (b / 2) + 1 := by omega
  generalize hp : b / 2 = p at hb
  have hne' : H r 0 (2 * p) k ≠ 0 ∨ H r 1 (2 * p) k ≠ 0 := by
    rcases hb with h | h
    · rwa [h] at hne
    · rwa [h, hH, hH] at hne
  have hw : conj (H r 0 (2 * p) k) * H r 0 (2 * p) k
      + H r 1 (2 * p) k * conj (H r 1 (2 * p) k) ≠ 0 := by
    rw [← normSq_sum]
    intro h0
    have h0' : ‖H r 0 (2 * p) k‖ ^ 2 + ‖H r 1 (2 * p) k‖ ^ 2 = 0 := by exact_mod_cast h0
    have h1 : ‖H r 0 (2 * p) k‖ = 0 := by nlinarith [sq_nonneg ‖H r 0 (2 * p) k‖, sq_nonneg ‖H r 1 (2 * p) k‖]
    have h2 : ‖H r 1 (2 * p) k‖ = 0 := by nlinarith [sq_nonneg ‖H r 0 (2 * p) k‖, sq_nonneg ‖H r 1 (2 * p) k‖]
    rcases hne' with h | h
    · exact h (norm_eq_zero.mp h1)
    · exact h (norm_eq_zero.mp h2)
  have m1 : (2 * p) % 2 = 0 := by omega
  have m2 : ¬ ((2 * p + 1) % 2 = 0) := by omega
  have d1 : 2 * p / 2 = p := by omega
  have d2 : (2 * p + 1) / 2 = p := by omega
  rcases hb with h | h
  · subst h
    simp only [alamoutiDecoded, alamoutiEncoded, receive, hp, m1, m2, if_true, if_false, Finset.sum_range_succ, Finset.sum_range_zero,
      hH, Nat.add_sub_cancel, normSq_sum, one_ne_zero, map_add, map_mul, map_neg, zero_add,
      Complex.conj_conj]
    rw [div_eq_iff hw]
    ring
  · subst h
    simp only [alamoutiDecoded, alamoutiEncoded, receive, d2, m1, m2, if_true, if_false, Finset.sum_range_succ, Finset.sum_range_zero,
      hH, Nat.add_sub_cancel, normSq_sum, one_ne_zero, map_add, map_mul, map_neg, zero_add,
      Complex.conj_conj]
    rw [div_eq_iff hw]
    ring

/-- C10, energy: the stream of either antenna carries the energy of the input. -/
theorem C10_energy (x enc : Stated) (h : alamoutiEncode x 2 = .ok enc) (s : Nat) (hs : s < 2) :
    ∑ b ∈ Finset.range enc.blocks, ∑ k ∈ Finset.range enc.symbols, ‖enc.raw s b k‖ ^ 2 =
      ∑ b ∈ Finset.range x.blocks, ∑ k ∈ Finset.range x.symbols, ‖x.raw 0 b k‖ ^ 2 := by
  unfold alamoutiEncode at h
  split at h
  · cases h
  · split at h
    · cases h
    · split at h
      · cases h
      · rename_i hb
        injection h with h
        subst h
        have he : x.blocks % 2 = 0 := by simpa using hb
        obtain ⟨n, hn⟩ := Nat.dvd_of_mod_eq_zero he
        rcases (by omega : s = 0 ∨ s = 1) with rfl | rfl
        · rfl
        · simp only [alamoutiEncoded, one_ne_zero, if_false, hn]
          have pairs : ∀ (f : Nat → ℝ) (n : Nat), ∑ b ∈ Finset.range (2 * n), f b =
              ∑ p ∈ Finset.range n, (f (2 * p) + f (2 * p + 1)) := by
            intro f n
            induction n with
            | zero => simp
            | succ n ih =>
              rw [Nat.mul_succ, Finset.sum_range_succ, Finset.sum_range_succ, ih,
                Finset.sum_range_succ]
              ring
          rw [pairs, pairs]
          refine Finset.sum_congr rfl fun p _ => ?_
          have m1 : (2 * p) % 2 = 0 := by omega
          have m2 : ¬ ((2 * p + 1) % 2 = 0) := by omega
          simp only [m1, m2, if_true, if_false, norm_neg, Nat.add_sub_cancel]
          rw [add_comm]
          congr 1 <;>
            exact Finset.sum_congr rfl fun k _ => by rw [Complex.norm_conj]

/-- C10, orthogonality: the two antenna streams of a pair of blocks are orthogonal (the reason why
each receive antenna can decode linearly). -/
theorem C10_orthogonal (x enc : Stated) (h : alamoutiEncode x 2 = .ok enc) (p k : Nat) :
    enc.raw 0 (2 * p) k * conj (enc.raw 1 (2 * p) k)
      + enc.raw 0 (2 * p + 1) k * conj (enc.raw 1 (2 * p + 1) k) = 0 := by
  unfold alamoutiEncode at h
  split at h
  · cases h
  · split at h
    · cases h
    · split at h
      · cases h
      · injection h with h
        subst h
        have m1 : (2 * p) % 2 = 0 := by omega
        have m2 : ¬ ((2 * p + 1) % 2 = 0) := by omega
        simp only [alamoutiEncoded, m1, m2, if_true, if_false, one_ne_zero, Nat.add_sub_cancel, map_neg,
          Complex.conj_conj]
        ring

/-- C10, rejected inputs: `ValueError` for several streams, for a number of antennas other than two
and for an odd number of blocks, and for nothing else. -/
theorem C10_rejects (x : Stated) (n : Nat) :
    (∃ e, alamoutiEncode x n = .error e) ↔ (x.streams ≠ 1 ∨ n ≠ 2 ∨ x.blocks % 2 ≠ 0) := by
  unfold alamoutiEncode
  by_cases h1 : x.streams = 1 <;> by_cases h2 : n = 2 <;> by_cases h3 : x.blocks % 2 = 0 <;>
    simp [h1, h2, h3]

/-- C10, limit of the guarantee: the channel must be constant over a pair.  The decoder only looks at
the state of the even block, so a channel that changes inside a pair corrupts the symbols although it
is perfectly known. -/
theorem C10_varying_channel_fails :
    ∃ (x enc dec : Stated) (H : Nat → Nat → Nat → Nat → ℂ),
      x.streams = 1 ∧ x.blocks = 2 ∧ (∀ t b k, H 0 t b k ≠ 0) ∧
      alamoutiEncode x 2 = .ok enc ∧ alamoutiDecode (receive 1 H enc) = .ok dec ∧
      dec.raw 0 0 0 ≠ x.raw 0 0 0 := by
  refine ⟨⟨1, 1, 2, 1, fun _ b _ => if b = 0 then 1 else 0, fun _ _ _ _ => 1⟩, _, _,
    fun _ _ b _ => if b = 0 then 1 else 2, rfl, rfl, ?_, by simp [alamoutiEncode]; rfl,
    by simp [alamoutiDecode, receive, alamoutiEncoded]; rfl, ?_⟩
  · intro t b k; dsimp; split <;> norm_num
  · have h2 : conj (2 : ℂ) = 2 := Complex.conj_ofNat 2
    simp [alamoutiDecoded, Finset.sum_range_succ, h2]
    norm_num

/-- Non-vacuity for `C10_round_trip`: two pairs, two receive antennas, a channel that differs from
pair to pair. -/
example : ∃ (x : Stated) (H : Nat → Nat → Nat → Nat → ℂ), x.streams = 1 ∧ x.blocks % 2 = 0 ∧
    0 < x.blocks ∧ (∀ r t p k, H r t (2 * p + 1) k = H r t (2 * p) k) ∧ (∀ r b k, H r 0 b k ≠ 0) ∧
    H 0 0 0 0 ≠ H 0 0 2 0 :=
  ⟨⟨1, 1, 4, 3, fun _ b k => b + k * I, fun _ _ _ _ => 1⟩,
    fun r t b _ => (((b / 2 + r + t + 1 : ℕ) : ℂ)), rfl, rfl, by decide,
    fun r t p k => by
      have h1 : (2 * p + 1) / 2 = p := by omega
      have h2 : (2 * p) / 2 = p := by omega
      simp only [h1, h2],
    fun r b k => by
      have : (b / 2 + r + 0 + 1 : ℕ) ≠ 0 := by omega
      exact Nat.cast_ne_zero.mpr this, by norm_num⟩

/-! ### C47: diversity combining followed by zero forcing -/

/-- C47, Alamouti: after decoding, zero forcing (single receive antenna) leaves the recovered symbols
untouched, i.e. the receive chain decode → equalize of `modem/modem.py` 1226-1229 returns the
transmitted symbols. -/
theorem C47_alamouti_zero_forcing (x : Stated) (hx : x.streams = 1) (he : x.blocks % 2 = 0)
    (H : Nat → Nat → Nat → Nat → ℂ) (hH : ∀ r t p k, H r t (2 * p + 1) k = H r t (2 * p) k) :
    ∃ enc dec, alamoutiEncode x 2 = .ok enc ∧ alamoutiDecode (receive 1 H enc) = .ok dec ∧
      ∀ b k, b < x.blocks → k < x.symbols → (H 0 0 b k ≠ 0 ∨ H 0 1 b k ≠ 0) →
        zfSingle dec b k = x.raw 0 b k := by
  obtain ⟨enc, dec, h1, _, _, _, h2, _, _, _, htx, h3⟩ := C10_round_trip x hx he 1 H hH
  refine ⟨enc, dec, h1, h2, ?_⟩
  intro b k hb hk hne
  obtain ⟨h4, h5⟩ := h3 0 b k (by decide) hb hk hne
  simp [zfSingle, htx, h4, h5]

/-- C47, maximum ratio combining: the combiner itself returns the transmitted symbols. -/
theorem C47_mrc_symbols (x : Stated) (hx : x.streams = 1) (numRx : Nat)
    (H : Nat → Nat → Nat → Nat → ℂ) :
    ∃ dec, mrcDecode (receive numRx H x) = .ok dec ∧ dec.streams = 1 ∧
      ∀ b k, (∃ r < numRx, H r 0 b k ≠ 0) → dec.raw 0 b k = x.raw 0 b k := by
  refine ⟨_, by simp only [mrcDecode, receive, hx]; rfl, rfl, ?_⟩
  rintro b k ⟨r0, hr0, hne⟩
  have hw : ((∑ r ∈ Finset.range numRx, ‖H r 0 b k‖ ^ 2 : ℝ) : ℂ) ≠ 0 := by
    have : 0 < ∑ r ∈ Finset.range numRx, ‖H r 0 b k‖ ^ 2 :=
      Finset.sum_pos' (fun _ _ => by positivity) ⟨r0, Finset.mem_range.mpr hr0, by
        have := norm_pos_iff.mpr hne; positivity⟩
    exact_mod_cast this.ne'
  simp only [Finset.sum_range_one]
  rw [div_eq_iff hw, Complex.ofReal_sum, Finset.mul_sum]
  refine Finset.sum_congr rfl fun r _ => ?_
  push_cast
  rw [← Complex.conj_mul' (H r 0 b k)]
  ring

/-- C47, maximum ratio combining: it is accepted for exactly one transmit stream, whatever the other
dimensions of the reception; any other number is refused with a `RuntimeError`. -/
theorem C47_mrc_accepts_iff (y : Stated) :
    (y.tx = 1 → ∃ dec, mrcDecode y = .ok dec ∧ dec.blocks = y.blocks ∧ dec.symbols = y.symbols) ∧
    (y.tx ≠ 1 → mrcDecode y = .error .runtime) := by
  constructor
  · intro h
    rw [mrcDecode, if_neg (by simpa using h)]
    exact ⟨_, rfl, rfl, rfl⟩
  · intro h
    rw [mrcDecode, if_pos h]

example : mrcDecode ⟨1, 2, 1, 1, fun _ _ _ => 1, fun _ _ _ _ => 1⟩ = .error .runtime :=
  (C47_mrc_accepts_iff _).2 (by decide)

/-- C47, maximum ratio combining followed by zero forcing: the combiner attaches the total channel
gain as state although its symbols are already normalised, so the equalizer divides a second time.
The received symbol is the transmitted one divided by the total gain. -/
theorem C47_mrc_zero_forcing_partial (x : Stated) (hx : x.streams = 1) (numRx : Nat)
    (H : Nat → Nat → Nat → Nat → ℂ) :
    ∃ dec, mrcDecode (receive numRx H x) = .ok dec ∧
      ∀ b k, (∃ r < numRx, H r 0 b k ≠ 0) →
        zfSingle dec b k = x.raw 0 b k /
          ((∑ r ∈ Finset.range numRx, ‖H r 0 b k‖ ^ 2 : ℝ) : ℂ) := by
  obtain ⟨dec, h1, _, h2⟩ := C47_mrc_symbols x hx numRx H
  refine ⟨dec, h1, fun b k hne => ?_⟩
  rw [zfSingle, h2 b k hne]
  simp only [mrcDecode, receive, hx] at h1
  injection h1 with h1
  subst h1
  simp

/-- C47 is false for maximum ratio combining: two receive antennas with unit gain halve the symbol. -/
theorem C47_mrc_zero_forcing_fails :
    ∃ (x dec : Stated) (H : Nat → Nat → Nat → Nat → ℂ), x.streams = 1 ∧
      mrcDecode (receive 2 H x) = .ok dec ∧ (∀ r b k, H r 0 b k = 1) ∧
      x.raw 0 0 0 = 1 ∧ zfSingle dec 0 0 = 1 / 2 := by
  obtain ⟨dec, h1, h2⟩ := C47_mrc_zero_forcing_partial
    ⟨1, 1, 1, 1, fun _ _ _ => 1, fun _ _ _ _ => 1⟩ rfl 2 (fun _ _ _ _ => 1)
  refine ⟨_, dec, _, rfl, h1, fun _ _ _ => rfl, rfl, ?_⟩
  rw [h2 0 0 ⟨0, by decide, by norm_num⟩]
  norm_num

/-- C47 is false for the `SingleCarrier` selection combiner, for every channel and every selection
rule: the state of the single transmit stream is duplicated, zero forcing returns half the symbol. -/
theorem C47_selection_zero_forcing_fails (x : Stated) (hx : x.streams = 1) (numRx : Nat)
    (H : Nat → Nat → Nat → Nat → ℂ) (sel : Nat → Nat → Nat) :
    ∃ dec, singleCarrierDecode sel (receive numRx H x) = .ok dec ∧
      ∀ b k, H (sel b k) 0 b k ≠ 0 → zfSingle dec b k = x.raw 0 b k / 2 := by
  refine ⟨_, by simp only [singleCarrierDecode, receive, hx]; rfl, ?_⟩
  intro b k hne
  simp only [zfSingle, Finset.sum_range_succ, Finset.sum_range_zero, zero_add, if_true]
  field_simp
  norm_num

/-- C47, selection combining of more than two transmit streams raises an exception. -/
theorem C47_selection_many_streams_fails (y : Stated) (h : 2 < y.tx) (sel : Nat → Nat → Nat) :
    singleCarrierDecode sel y = .error .index := by
  have : ¬ (y.tx = 1 ∨ y.tx = 2) := by omega
  simp [singleCarrierDecode, this]

/-- C47, no diversity decoder: zero forcing of a single stream returns the transmitted symbol. -/
theorem C47_plain_zero_forcing (x : Stated) (hx : x.streams = 1)
    (H : Nat → Nat → Nat → Nat → ℂ) (b k : Nat) (hne : H 0 0 b k ≠ 0) :
    zfSingle (receive 1 H x) b k = x.raw 0 b k := by
  simp only [zfSingle, receive, hx, Finset.sum_range_one]
  field_simp

example : ∃ (x : Stated) (H : Nat → Nat → Nat → Nat → ℂ), x.streams = 1 ∧ H 0 0 3 4 ≠ 0 ∧
    x.raw 0 3 4 ≠ 0 :=
  ⟨⟨1, 1, 4, 5, fun _ _ _ => I, fun _ _ _ _ => 1⟩, fun _ _ _ _ => 1 + I, rfl,
    by simp [Complex.ext_iff], by simp⟩

end Verif.Precoding
