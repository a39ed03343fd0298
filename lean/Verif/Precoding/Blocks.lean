import Verif.Np
import Mathlib.Data.Rat.Floor
import Mathlib.Tactic.FieldSimp
import Mathlib.Tactic.NormNum
import Mathlib.Tactic.Positivity

/-!
# Symbol precoding: block accounting

`TransmitSymbolCoding` and `ReceiveSymbolCoding` of `modem/precoding/symbol_precoding.py`.
-/

namespace Verif.Precoding

/-- A symbol coding step as far as block counts go: it consumes `inS` blocks and produces `outS`
blocks per code word (`num_transmit_input_symbols` / `num_transmit_output_symbols`, respectively
`num_receive_input_symbols` / `num_receive_output_symbols`).  Both are at least one. -/
structure Step where
  inS : Nat
  outS : Nat
  inPos : 0 < inS
  outPos : 0 < outS

/-- `Alamouti`, `space_time_block_coding.py` 131-145. -/
def alamouti : Step := ⟨2, 2, by decide, by decide⟩
/-- `Ganesan` encoder, `space_time_block_coding.py` 347-353. -/
def ganesanEnc : Step := ⟨3, 4, by decide, by decide⟩
/-- `Ganesan` decoder, `space_time_block_coding.py` 355-361. -/
def ganesanDec : Step := ⟨4, 3, by decide, by decide⟩
/-- `DFT`, `MaximumRatioCombining`, `SingleCarrier`: one block in, one block out. -/
def unitStep : Step := ⟨1, 1, by decide, by decide⟩

/-- `TransmitSymbolEncoder.encode_rate`, `symbol_precoding.py` 63-66: input over output. -/
def Step.encodeRate (s : Step) : ℚ := (s.inS : ℚ) / s.outS

/-- `ReceiveSymbolDecoder.decode_rate`, `symbol_precoding.py` 105-108: output over input. -/
def Step.decodeRate (s : Step) : ℚ := (s.outS : ℚ) / s.inS

/-- The blocks a step really outputs: `Alamouti` (lines 66-67 / 97-98) and `Ganesan` (lines 197-202 /
254-258) reject block counts that are no multiple of the code word and output `outS` blocks per code
word; unit steps pass every count. -/
def Step.apply (s : Step) (b : Nat) : Except PyErr Nat :=
  if b % s.inS ≠ 0 then .error .value else .ok (b / s.inS * s.outS)

/-- Blocks a chain really outputs, steps applied in chain order (`symbol_precoding.py` 132-135,
188-191). -/
def applyChain : List Step → Nat → Except PyErr Nat
  | [], b => .ok b
  | s :: ss, b => do
    let c ← s.apply b
    applyChain ss c

/-- `TransmitSymbolCoding.encode_rate`, `symbol_precoding.py` 139-147. -/
def encodeRate (chain : List Step) : ℚ := chain.foldl (fun r s => r * s.encodeRate) 1

/-- `ReceiveSymbolCoding.decode_rate`, `symbol_precoding.py` 195-203. -/
def decodeRate (chain : List Step) : ℚ := chain.foldl (fun r s => r * s.decodeRate) 1

/-- `TransmitSymbolCoding.num_encoded_blocks`, `symbol_precoding.py` 149-165.  `int` of a
non-negative fraction is its floor. -/
def numEncodedBlocks (chain : List Step) (b : Nat) : Nat :=
  ⌊chain.foldl (fun n s => n / s.encodeRate) (b : ℚ)⌋₊

/-- `ReceiveSymbolCoding.num_decoded_blocks`, `symbol_precoding.py` 205-221: it *divides* by the
decode rate, walking the chain backwards. -/
def numDecodedBlocks (chain : List Step) (b : Nat) : Nat :=
  ⌊chain.reverse.foldl (fun n s => n / s.decodeRate) (b : ℚ)⌋₊

/-! ### Specification: the overall expansion of a chain -/

/-- Blocks out per block in, over the whole chain. -/
def expansion : List Step → ℚ
  | [] => 1
  | s :: ss => (s.outS : ℚ) / s.inS * expansion ss

theorem expansion_pos (chain : List Step) : 0 < expansion chain := by
  induction chain with
  | nil => simp [expansion]
  | cons s ss ih =>
    have := s.inPos; have := s.outPos
    unfold expansion; positivity

theorem apply_ok (s : Step) (b c : Nat) (h : s.apply b = .ok c) :
    (c : ℚ) = b * ((s.outS : ℚ) / s.inS) := by
  unfold Step.apply at h
  split at h
  · cases h
  · rename_i hm
    injection h with h
    have hm' : b % s.inS = 0 := by simpa using hm
    obtain ⟨k, rfl⟩ := Nat.dvd_of_mod_eq_zero hm'
    have hp := s.inPos
    rw [Nat.mul_div_cancel_left _ hp] at h
    subst h
    have : (s.inS : ℚ) ≠ 0 := by exact_mod_cast hp.ne'
    push_cast
    field_simp

theorem applyChain_ok (chain : List Step) (b c : Nat) (h : applyChain chain b = .ok c) :
    (c : ℚ) = b * expansion chain := by
  induction chain generalizing b with
  | nil => simp [applyChain] at h; simp [expansion, h]
  | cons s ss ih =>
    simp only [applyChain, bind, Except.bind] at h
    split at h
    · cases h
    · rename_i d hd
      rw [ih d h, apply_ok s b d hd, expansion]
      ring

theorem foldl_encode (chain : List Step) (q : ℚ) :
    chain.foldl (fun n s => n / s.encodeRate) q = q * expansion chain := by
  induction chain generalizing q with
  | nil => simp [expansion]
  | cons s ss ih =>
    have h1 : (s.inS : ℚ) ≠ 0 := by exact_mod_cast s.inPos.ne'
    have h2 : (s.outS : ℚ) ≠ 0 := by exact_mod_cast s.outPos.ne'
    rw [List.foldl_cons, ih, expansion, Step.encodeRate]
    field_simp

theorem foldl_decode_fwd (chain : List Step) (q : ℚ) :
    chain.foldl (fun n s => n / s.decodeRate) q = q / expansion chain := by
  induction chain generalizing q with
  | nil => simp [expansion]
  | cons s ss ih =>
    have h1 : (s.inS : ℚ) ≠ 0 := by exact_mod_cast s.inPos.ne'
    have h2 : (s.outS : ℚ) ≠ 0 := by exact_mod_cast s.outPos.ne'
    have h3 := (expansion_pos ss).ne'
    rw [List.foldl_cons, ih, expansion, Step.decodeRate]
    field_simp

theorem expansion_append (a b : List Step) :
    expansion (a ++ b) = expansion a * expansion b := by
  induction a with
  | nil => simp [expansion]
  | cons s ss ih => simp [expansion, ih, mul_assoc]

theorem expansion_reverse (a : List Step) : expansion a.reverse = expansion a := by
  induction a with
  | nil => rfl
  | cons s ss ih => simp [expansion_append, expansion, ih, mul_comm]

theorem numDecodedBlocks_eq (chain : List Step) (b : Nat) :
    numDecodedBlocks chain b = ⌊(b : ℚ) / expansion chain⌋₊ := by
  rw [numDecodedBlocks, foldl_decode_fwd, expansion_reverse]

/-! ### C12 -/

/-- C12, encoding half: whenever the encoding chain accepts `b` blocks, the announced number of
encoded blocks is the number really output. -/
theorem C12_encoded_blocks (chain : List Step) (b c : Nat) (h : applyChain chain b = .ok c) :
    numEncodedBlocks chain b = c := by
  rw [numEncodedBlocks, foldl_encode, ← applyChain_ok chain b c h, Nat.floor_natCast]

/-- C12, decoding half, exact law: the announced number of decoded blocks is right for a positive
number of blocks exactly if the decoding chain as a whole has rate one. -/
theorem C12_decoded_blocks_iff_partial (chain : List Step) (b c : Nat) (hb : 0 < b)
    (h : applyChain chain b = .ok c) :
    numDecodedBlocks chain b = c ↔ expansion chain = 1 := by
  have hc := applyChain_ok chain b c h
  have hp := expansion_pos chain
  have hbq : (0 : ℚ) < b := by exact_mod_cast hb
  rw [numDecodedBlocks_eq]
  constructor
  · intro hf
    rcases lt_trichotomy (expansion chain) 1 with hlt | heq | hgt
    · exfalso
      have h1 : (b : ℚ) ≤ b / expansion chain := by
        rw [le_div_iff₀ hp]; nlinarith
      have h2 : b ≤ c := by rw [← hf]; exact Nat.le_floor h1
      have h3 : (b : ℚ) ≤ c := by exact_mod_cast h2
      nlinarith
    · exact heq
    · exfalso
      have h0 : (0 : ℚ) ≤ b / expansion chain := by positivity
      have h1 : (c : ℚ) ≤ b / expansion chain := by
        rw [← hf]; exact Nat.floor_le h0
      have h2 : (b : ℚ) / expansion chain < b := by
        rw [div_lt_iff₀ hp]; nlinarith
      nlinarith
  · intro he
    rw [he] at hc ⊢
    rw [div_one, Nat.floor_natCast]
    have : (c : ℚ) = b := by rw [hc, mul_one]
    exact_mod_cast this.symm

/-- C12, decoding half is false: a single Ganesan decoder outputs three blocks for four received
ones, five are announced. -/
theorem C12_decoded_blocks_fails :
    applyChain [ganesanDec] 4 = .ok 3 ∧ numDecodedBlocks [ganesanDec] 4 = 5 := by
  refine ⟨by decide, ?_⟩
  rw [numDecodedBlocks_eq]
  simp only [expansion, ganesanDec]
  rw [Nat.floor_eq_iff (by norm_num)]
  norm_num

/-- C12, the second half is false too: encoding and decoding accounting are not inverse for the
matching Ganesan chain: three blocks become four become five. -/
theorem C12_inverse_fails :
    numDecodedBlocks [ganesanDec] (numEncodedBlocks [ganesanEnc] 3) = 5 := by
  have h : numEncodedBlocks [ganesanEnc] 3 = 4 := C12_encoded_blocks _ _ _ (by decide)
  rw [h]
  exact C12_decoded_blocks_fails.2

/-- A decoding chain matches an encoding chain if it undoes the steps in reverse order. -/
def Matches : List Step → List Step → Prop
  | enc, dec => enc.length = dec.length ∧ ∀ (i : Nat) (e d : Step), enc[i]? = some e → dec.reverse[i]? = some d →
      d.inS = e.outS ∧ d.outS = e.inS

theorem matches_expansion (enc dec : List Step) (h : Matches enc dec) :
    expansion dec = (expansion enc)⁻¹ := by
  obtain ⟨hl, hm⟩ := h
  rw [← expansion_reverse]
  have hl' : enc.length = dec.reverse.length := by simpa using hl
  generalize dec.reverse = ds at hl' hm
  clear hl
  induction enc generalizing ds with
  | nil =>
    have : ds = [] := by simpa using hl'.symm
    subst this; simp [expansion]
  | cons e es ih =>
    cases ds with
    | nil => simp at hl'
    | cons d ds =>
      obtain ⟨h1, h2⟩ := hm 0 e d rfl rfl
      have := ih ds (by simpa using hl')
        (fun i e' d' h3 h4 => hm (i + 1) e' d' (by simpa using h3) (by simpa using h4))
      rw [expansion, expansion, this, h1, h2]
      have h1 : (e.inS : ℚ) ≠ 0 := by exact_mod_cast e.inPos.ne'
      have h2 : (e.outS : ℚ) ≠ 0 := by exact_mod_cast e.outPos.ne'
      have h3 := (expansion_pos es).ne'
      field_simp

/-- C12, what the code really does: decoding a matching chain restores the number of blocks, for
every chain and every accepted number of blocks, as long as the decoder accepts it. -/
theorem C12_actual_inverse (enc dec : List Step) (hm : Matches enc dec) (b c d : Nat)
    (he : applyChain enc b = .ok c) (hd : applyChain dec c = .ok d) : d = b := by
  have h1 := applyChain_ok _ _ _ he
  have h2 := applyChain_ok _ _ _ hd
  have h3 := (expansion_pos enc).ne'
  rw [matches_expansion enc dec hm, h1] at h2
  have : (d : ℚ) = b := by rw [h2]; field_simp
  exact_mod_cast this

theorem apply_ok_of_mul (s : Step) (k : Nat) : s.apply (k * s.inS) = .ok (k * s.outS) := by
  unfold Step.apply
  simp [Nat.mul_div_cancel _ s.inPos]

theorem apply_inv (s : Step) (b c : Nat) (h : s.apply b = .ok c) :
    ∃ k, b = k * s.inS ∧ c = k * s.outS := by
  unfold Step.apply at h
  split at h
  · cases h
  · rename_i hm
    injection h with h
    have hm' : b % s.inS = 0 := by simpa using hm
    obtain ⟨k, rfl⟩ := Nat.dvd_of_mod_eq_zero hm'
    rw [Nat.mul_div_cancel_left _ s.inPos] at h
    exact ⟨k, Nat.mul_comm _ _, h.symm⟩

theorem applyChain_append (a b : List Step) (n : Nat) :
    applyChain (a ++ b) n = (applyChain a n).bind (applyChain b) := by
  induction a generalizing n with
  | nil => rfl
  | cons s ss ih =>
    simp only [List.cons_append, applyChain, bind, Except.bind]
    cases s.apply n with
    | error e => rfl
    | ok c => simpa [Except.bind] using ih c

/-- C12: the matching decoder chain accepts whatever the encoder chain outputs, and gives the
original number of blocks back. -/
theorem C12_actual_round_trip (enc dec : List Step) (hm : Matches enc dec) (b c : Nat)
    (he : applyChain enc b = .ok c) : applyChain dec c = .ok b := by
  obtain ⟨hl, hm⟩ := hm
  have hl' : enc.length = dec.reverse.length := by simpa using hl
  rw [← List.reverse_reverse dec]
  generalize dec.reverse = ds at hl' hm
  clear hl
  induction enc generalizing ds b with
  | nil =>
    have : ds = [] := by simpa using hl'.symm
    subst this
    simp [applyChain] at he ⊢
    exact he.symm
  | cons e es ih =>
    cases ds with
    | nil => simp at hl'
    | cons d ds =>
      obtain ⟨h1, h2⟩ := hm 0 e d rfl rfl
      simp only [applyChain, bind, Except.bind] at he
      split at he
      · cases he
      · rename_i m hme
        have := ih m he ds (by simpa using hl')
          (fun i e' d' h3 h4 => hm (i + 1) e' d' (by simpa using h3) (by simpa using h4))
        rw [List.reverse_cons, applyChain_append, this]
        obtain ⟨k, rfl, rfl⟩ := apply_inv e b m hme
        have hk := apply_ok_of_mul d k
        rw [h1, h2] at hk
        simp [Except.bind, applyChain, hk, bind]

/-- The announced overall encoding rate is the quotient of accepted and output blocks. -/
theorem C12_encode_rate (chain : List Step) (b c : Nat) (hb : 0 < b)
    (h : applyChain chain b = .ok c) : encodeRate chain = (b : ℚ) / c := by
  have hfold : ∀ (l : List Step) (q : ℚ), l.foldl (fun r s => r * s.encodeRate) q
      = q / expansion l := by
    intro l
    induction l with
    | nil => intro q; simp [expansion]
    | cons s ss ih =>
      intro q
      have h1 : (s.inS : ℚ) ≠ 0 := by exact_mod_cast s.inPos.ne'
      have h2 : (s.outS : ℚ) ≠ 0 := by exact_mod_cast s.outPos.ne'
      have h3 := (expansion_pos ss).ne'
      rw [List.foldl_cons, ih, expansion, Step.encodeRate]
      field_simp
  have hbq : (b : ℚ) ≠ 0 := by exact_mod_cast hb.ne'
  have h3 := (expansion_pos chain).ne'
  rw [encodeRate, hfold, applyChain_ok chain b c h]
  field_simp

example : applyChain [ganesanEnc, alamouti, unitStep] 6 = .ok 8 := by decide
example : applyChain [unitStep, alamouti, ganesanDec] 8 = .ok 6 := by decide
example : Matches [ganesanEnc, alamouti] [alamouti, ganesanDec] := by
  refine ⟨rfl, ?_⟩
  intro i e d h1 h2
  match i, h1, h2 with
  | 0, h1, h2 => cases h1; cases h2; exact ⟨rfl, rfl⟩
  | 1, h1, h2 => cases h1; cases h2; exact ⟨rfl, rfl⟩
  | (n + 2), h1, _ => simp at h1
example : expansion [alamouti, unitStep] = 1 := by norm_num [expansion, alamouti, unitStep]

end Verif.Precoding
