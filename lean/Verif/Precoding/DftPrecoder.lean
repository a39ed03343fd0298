import Verif.Dft
import Verif.Precoding.Symbols

/-!
# DFT symbol precoder

`modem/precoding/dft.py`.
-/

namespace Verif.Precoding

open Dft Complex

/-- `DFT.encode_symbols`, `dft.py` 57-61: Fourier transform over the blocks of each stream and each
symbol position; the states are kept. -/
noncomputable def dftEncode (norm : Norm) (x : Stated) : Stated :=
  { x with raw := fun s b k => fft norm x.blocks (fun j => x.raw s j k) b }

/-- `DFT.decode_symbols`, `dft.py` 63-67. -/
noncomputable def dftDecode (norm : Norm) (x : Stated) : Stated :=
  { x with raw := fun s b k => ifft norm x.blocks (fun j => x.raw s j k) b }

/-- C48: the DFT precoder is loss-free for every normalisation, block count and stream count. -/
theorem C48_round_trip (norm : Norm) (x : Stated) (s b k : Nat) (hb : b < x.blocks) :
    (dftDecode norm (dftEncode norm x)).raw s b k = x.raw s b k ∧
    (dftDecode norm (dftEncode norm x)).streams = x.streams ∧
    (dftDecode norm (dftEncode norm x)).blocks = x.blocks ∧
    (dftDecode norm (dftEncode norm x)).symbols = x.symbols ∧
    (dftDecode norm (dftEncode norm x)).states = x.states :=
  ⟨ifft_fft norm x.blocks (fun j => x.raw s j k) b hb, rfl, rfl, rfl, rfl⟩

theorem sum_ifft (norm : Norm) (n : Nat) (T : Finset Nat) (c : Nat → ℂ) (x : Nat → Nat → ℂ) (m : Nat) :
    ifft norm n (fun j => ∑ t ∈ T, c t * x t j) m = ∑ t ∈ T, c t * ifft norm n (x t) m := by
  classical
  induction T using Finset.induction_on with
  | empty => simp [ifft]
  | insert a T ha ih =>
    simp only [Finset.sum_insert ha]
    rw [ifft_linear, ih]

/-- C48, over a channel that does not change over the blocks, for any number of transmit and receive
antennas: decoding the reception of the precoded symbols is the reception of the plain symbols, so
whatever equalizer follows sees the original problem. -/
theorem C48_static_channel (norm : Norm) (x : Stated) (numRx : Nat) (H : Nat → Nat → Nat → Nat → ℂ)
    (hH : ∀ r t b k, H r t b k = H r t 0 k) (r b k : Nat) (hb : b < x.blocks) :
    (dftDecode norm (receive numRx H (dftEncode norm x))).raw r b k =
      (receive numRx H x).raw r b k := by
  simp only [dftDecode, receive, dftEncode]
  have h1 : (fun j => ∑ t ∈ Finset.range x.streams, H r t j k *
      fft norm x.blocks (fun i => x.raw t i k) j) =
      fun j => ∑ t ∈ Finset.range x.streams, H r t 0 k *
        fft norm x.blocks (fun i => x.raw t i k) j := by
    funext j
    exact Finset.sum_congr rfl fun t _ => by rw [hH]
  rw [h1, sum_ifft]
  refine Finset.sum_congr rfl fun t _ => ?_
  rw [ifft_fft norm x.blocks (fun i => x.raw t i k) b hb, hH r t b k]

/-- C48 is false over channels that change between blocks, because the decoder runs before the
equalizer (`modem/modem.py` 1226-1229) and keeps the per-block states: zero forcing then does not
return the transmitted symbol although the channel is perfectly known and invertible. -/
theorem C48_varying_channel_fails :
    ∃ (x : Stated) (H : Nat → Nat → Nat → Nat → ℂ), x.streams = 1 ∧ x.blocks = 2 ∧
      (∀ r t b k, H r t b k ≠ 0) ∧
      zfSingle (dftDecode .backward (receive 1 H (dftEncode .backward x))) 0 0 ≠ x.raw 0 0 0 := by
  refine ⟨⟨1, 1, 2, 1, fun _ b _ => if b = 0 then 1 else 0, fun _ _ _ _ => 1⟩,
    fun _ _ b _ => if b = 0 then 1 else 3, rfl, rfl, ?_, ?_⟩
  · intro r t b k; dsimp; split <;> norm_num
  · simp [zfSingle, dftDecode, receive, dftEncode, fft, ifft, Norm.fwd, Norm.bwd,
      Finset.sum_range_succ]
    norm_num

example : ∃ (x : Stated) (H : Nat → Nat → Nat → Nat → ℂ), 3 < x.blocks ∧ x.streams = 2 ∧
    (∀ r t b k, H r t b k = H r t 0 k) ∧ H 0 0 0 0 ≠ H 0 1 0 0 :=
  ⟨⟨2, 1, 8, 3, fun s b k => s + b + k, fun _ _ _ _ => 1⟩, fun r t _ _ => r + 2 * t,
    by decide, rfl, fun _ _ _ _ => rfl, by norm_num⟩

end Verif.Precoding
