import Verif.Np
import Mathlib.Analysis.Complex.Basic
import Mathlib.Analysis.SpecialFunctions.Pow.Real
import Mathlib.Analysis.SpecialFunctions.Trigonometric.Basic
import Mathlib.Tactic.NormNum
import Mathlib.Tactic.Positivity

/-!
# PSK / QAM mapping

Model of `hermespy/modem/tools/psk_qam_mapping.py`.  Arrays over many symbols are processed column by
column: the reshape of line 123 with `order="F"` puts `bits_per_symbol` consecutive bits into a
column, every operation is elementwise over the columns, and `ravel("F")` (line 497) concatenates the
columns again.
-/

namespace Verif.Mapping

open Complex

/-- A bit as number. -/
def bit (b : Bool) : ℤ := if b then 1 else 0

/-- `generate_pam_symbol_3gpp` of one column, `psk_qam_mapping.py` 262-298.  The floats are exact
integers. `ValueError` for an unsupported order, `IndexError` when rows are missing. -/
def pam : Nat → List Bool → Except PyErr ℤ
  | 2, [b0] => .ok (1 - 2 * bit b0)
  | 4, [b0, b1] => .ok ((1 - 2 * bit b0) * (1 + 2 * bit b1))
  | 8, [b0, b1, b2] => .ok ((2 * bit b0 - 1) * ((1 - 2 * bit b1) * (1 + 2 * bit b2) - 4))
  | 16, [b0, b1, b2, b3] =>
    .ok (((((1 - 2 * bit b2) * (1 + 2 * bit b3) - 4) * (-1 + 2 * bit b1)) - 8) * (-1 + 2 * bit b0))
  | 2, _ => .error .index
  | 4, _ => .error .index
  | 8, _ => .error .index
  | 16, _ => .error .index
  | _, _ => .error .value

/-- Bits at even positions (`symbol_bits[[0, 2, ..], :]`). -/
def evens : List Bool → List Bool
  | a :: _ :: t => a :: evens t
  | [a] => [a]
  | [] => []

/-- Bits at odd positions (`symbol_bits[[1, 3, ..], :]`). -/
def odds : List Bool → List Bool
  | _ :: b :: t => b :: odds t
  | _ => []

/-- Real-valued branch of `get_symbols`: `generate_pam_symbol_3gpp(order, bits) / sqrt(norm) + 0j`. -/
noncomputable def pamSymbol (order : Nat) (norm : ℝ) (w : List Bool) : Except PyErr ℂ := do
  let a ← pam order w
  .ok ⟨(a : ℝ) / Real.sqrt norm, 0⟩

/-- Complex branch of `get_symbols`: `(real_part + 1j * imag_part) / sqrt(norm)`. -/
noncomputable def qamSymbol (order : Nat) (norm : ℝ) (w : List Bool) : Except PyErr ℂ := do
  let a ← pam order (evens w)
  let b ← pam order (odds w)
  .ok ⟨(a : ℝ) / Real.sqrt norm, (b : ℝ) / Real.sqrt norm⟩

/-- `get_symbols` of one column without custom mapping, `psk_qam_mapping.py` 131-167. -/
noncomputable def getSymbol3gpp (order : Nat) (cplx : Bool) (w : List Bool) : Except PyErr ℂ :=
  if order = 2 then pamSymbol 2 1 w
  else if order = 4 ∧ cplx then qamSymbol 2 2 w
  else if order = 4 ∧ ¬ cplx then pamSymbol 4 5 w
  else if order = 8 ∧ ¬ cplx then pamSymbol 8 21 w
  else if order = 16 ∧ cplx then qamSymbol 4 10 w
  else if order = 16 ∧ ¬ cplx then pamSymbol 16 85 w
  else if order = 64 ∧ cplx then qamSymbol 8 42 w
  else if order = 256 ∧ cplx then qamSymbol 16 170 w
  else .error .runtime

/-- A boolean factor in a numpy product. -/
noncomputable def ind (p : Prop) [Decidable p] : ℝ := if p then 1 else 0

open Classical in
/-- First bit, order 4, lines 342-350. -/
noncomputable def llr4_0 (r v : ℝ) : ℝ :=
  2 * (ind (r ≤ -2) * (-4 * (1 + r)) + ind (r > -2 ∧ r ≤ 2) * (-2 * r)
    + ind (r > 2) * (4 * (1 - r))) / v

open Classical in
/-- Second bit, order 4, lines 352-359. -/
noncomputable def llr4_1 (r v : ℝ) : ℝ :=
  2 * (ind (r ≤ 0) * (-2 * (2 + r)) + ind (r > 0) * (-2 * (2 - r))) / v

open Classical in
/-- First bit, order 8, lines 368-380. -/
noncomputable def llr8_0 (r v : ℝ) : ℝ :=
  4 * (ind (r ≤ -6) * (-4 * (3 + r))
    + ind (r > -6 ∧ r ≤ -4) * (-3 * (2 + r))
    + ind (r > -4 ∧ r ≤ -2) * (-2 * (1 + r))
    + ind (r > -2 ∧ r ≤ 2) * (-r)
    + ind (r > 2 ∧ r ≤ 4) * (2 * (1 - r))
    + ind (r > 4 ∧ r ≤ 6) * (3 * (2 - r))
    + ind (r > 6) * (4 * (3 - r))) / v

open Classical in
/-- Second bit, order 8, lines 382-393. -/
noncomputable def llr8_1 (r v : ℝ) : ℝ :=
  4 * (ind (r ≤ -6) * (-2 * (5 + r))
    + ind (r > -6 ∧ r ≤ -2) * (-(4 + r))
    + ind (r > -2 ∧ r ≤ 0) * (-2 * (3 + r))
    + ind (r > 0 ∧ r ≤ 2) * (-2 * (3 - r))
    + ind (r > 2 ∧ r ≤ 6) * (-(4 - r))
    + ind (r > 6) * (-2 * (5 - r))) / v

open Classical in
/-- Third bit, order 8, lines 395-404. -/
noncomputable def llr8_2 (r v : ℝ) : ℝ :=
  4 * (ind (r ≤ -4) * (-(6 + r))
    + ind (r > -4 ∧ r ≤ 0) * (2 + r)
    + ind (r > 0 ∧ r ≤ 4) * (2 - r)
    + ind (r > 4) * (-(6 - r))) / v

open Classical in
/-- First bit, order 16, lines 412-432. -/
noncomputable def llr16_0 (r v : ℝ) : ℝ :=
  8 * (ind (r ≤ -14) * (-4 * (7 + r))
    - ind (r > -14 ∧ r ≤ -12) * 3.5 * (6 + r)
    - ind (r > -12 ∧ r ≤ -10) * 3 * (5 + r)
    - ind (r > -10 ∧ r ≤ -8) * 2.5 * (4 + r)
    - ind (r > -8 ∧ r ≤ -6) * 2 * (3 + r)
    - ind (r > -6 ∧ r ≤ -4) * 1.5 * (2 + r)
    - ind (r > -4 ∧ r ≤ -2) * (1 + r)
    - ind (r > -2 ∧ r ≤ 2) * 0.5 * r
    + ind (r > 2 ∧ r ≤ 4) * (1 - r)
    + ind (r > 4 ∧ r ≤ 6) * 1.5 * (2 - r)
    + ind (r > 6 ∧ r ≤ 8) * 2 * (3 - r)
    + ind (r > 8 ∧ r ≤ 10) * 2.5 * (4 - r)
    + ind (r > 10 ∧ r ≤ 12) * 3 * (5 - r)
    + ind (r > 12 ∧ r ≤ 14) * 3.5 * (6 - r)
    + ind (r > 14) * 4 * (7 - r)) / v

open Classical in
/-- Second bit, order 16, lines 434-453. -/
noncomputable def llr16_1 (r v : ℝ) : ℝ :=
  8 * (ind (r ≤ -14) * (-2 * (11 + r))
    - ind (r > -14 ∧ r ≤ -12) * 1.5 * (10 + r)
    - ind (r > -12 ∧ r ≤ -10) * (9 + r)
    - ind (r > -10 ∧ r ≤ -6) * 0.5 * (8 + r)
    - ind (r > -6 ∧ r ≤ -4) * (7 + r)
    - ind (r > -4 ∧ r ≤ -2) * 1.5 * (6 + r)
    - ind (r > -2 ∧ r ≤ 0) * 2 * (5 + r)
    - ind (r > 0 ∧ r ≤ 2) * 2 * (5 - r)
    - ind (r > 2 ∧ r ≤ 4) * 1.5 * (6 - r)
    - ind (r > 4 ∧ r ≤ 6) * (7 - r)
    - ind (r > 6 ∧ r ≤ 10) * 0.5 * (8 - r)
    - ind (r > 10 ∧ r ≤ 12) * (9 - r)
    - ind (r > 12 ∧ r ≤ 14) * 1.5 * (10 - r)
    - ind (r > 14) * 2 * (11 - r)) / v

open Classical in
/-- Third bit, order 16, lines 455-472. -/
noncomputable def llr16_2 (r v : ℝ) : ℝ :=
  8 * (ind (r ≤ -14) * (-13 - r)
    - ind (r > -14 ∧ r ≤ -10) * 0.5 * (12 + r)
    - ind (r > -10 ∧ r ≤ -8) * (11 + r)
    + ind (r > -8 ∧ r ≤ -6) * (5 + r)
    + ind (r > -6 ∧ r ≤ -2) * 0.5 * (4 + r)
    + ind (r > -2 ∧ r ≤ 0) * (3 + r)
    + ind (r > 0 ∧ r ≤ 2) * (3 - r)
    + ind (r > 2 ∧ r ≤ 6) * 0.5 * (4 - r)
    + ind (r > 6 ∧ r ≤ 8) * (5 - r)
    - ind (r > 8 ∧ r ≤ 10) * (11 - r)
    - ind (r > 10 ∧ r ≤ 14) * 0.5 * (12 - r)
    - ind (r > 14) * (13 - r)) / v

open Classical in
/-- Fourth bit, order 16, lines 474-487. -/
noncomputable def llr16_3 (r v : ℝ) : ℝ :=
  8 * (ind (r ≤ -12) * (-0.5 * (14 + r))
    + ind (r > -12 ∧ r ≤ -8) * 0.5 * (10 + r)
    - ind (r > -8 ∧ r ≤ -4) * 0.5 * (6 + r)
    + ind (r > -4 ∧ r ≤ 0) * 0.5 * (2 + r)
    + ind (r > 0 ∧ r ≤ 4) * 0.5 * (2 - r)
    - ind (r > 4 ∧ r ≤ 8) * 0.5 * (6 - r)
    + ind (r > 8 ∧ r ≤ 12) * 0.5 * (10 - r)
    - ind (r > 12) * 0.5 * (14 - r)) / v

/-- `get_llr_3gpp` of one received value, `psk_qam_mapping.py` 301-497. -/
noncomputable def llr3gpp (order : Nat) (r v : ℝ) (cplx : Bool) : Except PyErr (List ℝ) :=
  let r := if cplx then r * Real.sqrt 2 else r
  let half := fun (l : List ℝ) => if cplx then l.map (· / 2) else l
  match order with
  | 2 => .ok (half [-2 * r / v])
  | 4 =>
    let r := r * Real.sqrt 5
    .ok (half ([llr4_0 r v, llr4_1 r v].map (· / 5)))
  | 8 =>
    let r := r * Real.sqrt 21
    .ok (half ([llr8_0 r v, llr8_1 r v, llr8_2 r v].map (· / 21)))
  | 16 =>
    let r := r * Real.sqrt 85
    .ok (half ([llr16_0 r v, llr16_1 r v, llr16_2 r v, llr16_3 r v].map (· / 85)))
  | _ => .error .value

/-- `llr[0::2] = a; llr[1::2] = b`. -/
def interleave {α : Type} : List α → List α → List α
  | a :: as, b :: bs => a :: b :: interleave as bs
  | _, _ => []

/-- Complex branch of `detect_bits`. -/
noncomputable def qamLlr (order : Nat) (y : ℂ) (v : ℝ) : Except PyErr (List ℝ) := do
  let a ← llr3gpp order y.re v true
  let b ← llr3gpp order y.im v true
  .ok (interleave a b)

/-- `detect_bits` of one symbol without custom mapping, soft values, `psk_qam_mapping.py` 218-256. -/
noncomputable def detectLlr (order : Nat) (cplx : Bool) (y : ℂ) (v : ℝ) : Except PyErr (List ℝ) :=
  if order = 2 then llr3gpp 2 y.re v false
  else if order = 4 ∧ cplx then qamLlr 2 y v
  else if order = 4 ∧ ¬ cplx then llr3gpp 4 y.re v false
  else if order = 8 ∧ ¬ cplx then llr3gpp 8 y.re v false
  else if order = 16 ∧ ¬ cplx then llr3gpp 16 y.re v false
  else if order = 16 ∧ cplx then qamLlr 4 y v
  else if order = 64 ∧ cplx then qamLlr 8 y v
  else if order = 256 ∧ cplx then qamLlr 16 y v
  else .error .runtime

open Classical in
/-- `llr > 0`, line 259. -/
noncomputable def hard (l : List ℝ) : List Bool := l.map fun x => decide (0 < x)

/-- Words of `n` bits of a bit stream: the columns of the reshape, line 123; `ValueError` if the
number of bits is no multiple of `n`. -/
def words (n : Nat) (bits : List Bool) : Except PyErr (List (List Bool)) :=
  Np.reshape (bits.length / n) n bits

/-- `get_symbols` of a bit stream, `psk_qam_mapping.py` 104-169, default mapping. -/
noncomputable def getSymbols3gpp (order : Nat) (cplx : Bool) (bits : List Bool) :
    Except PyErr (List ℂ) := do
  let ws ← words (Nat.log2 order) bits
  ws.mapM (getSymbol3gpp order cplx)

/-- `detect_bits` of a symbol stream, soft output, `psk_qam_mapping.py` 171-259, default mapping. -/
noncomputable def detectSoft3gpp (order : Nat) (cplx : Bool) (v : ℝ) (ys : List ℂ) :
    Except PyErr (List ℝ) := do
  let ls ← ys.mapM (fun y => detectLlr order cplx y v)
  .ok ls.flatten

/-- `detect_bits` of a symbol stream, hard output. -/
noncomputable def detectHard3gpp (order : Nat) (cplx : Bool) (v : ℝ) (ys : List ℂ) :
    Except PyErr (List Bool) := do
  let l ← detectSoft3gpp order cplx v ys
  .ok (hard l)

/-- The default constellations of the class that use the 3GPP formulas: `mapping_available` (31) and
`mapping_available_pam` (34) without the tabulated 8-PSK. -/
def Supported (order : Nat) (cplx : Bool) : Prop :=
  (cplx = true ∧ (order = 2 ∨ order = 4 ∨ order = 16 ∨ order = 64 ∨ order = 256)) ∨
  (cplx = false ∧ (order = 2 ∨ order = 4 ∨ order = 8 ∨ order = 16))

/-- Half the minimum distance of each constellation is `1 / sqrt (normOf ..)`
(proved in `C14_min_distance`). -/
def normOf (order : Nat) (cplx : Bool) : ℝ :=
  match order, cplx with
  | 2, _ => 1
  | 4, true => 2
  | 4, false => 5
  | 8, false => 21
  | 16, true => 10
  | 16, false => 85
  | 64, true => 42
  | 256, true => 170
  | _, _ => 1

end Verif.Mapping
