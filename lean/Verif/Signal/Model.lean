import Verif.Np
import Mathlib.Data.Complex.Basic
import Mathlib.Algebra.BigOperators.Group.List.Basic
import Mathlib.Algebra.BigOperators.Fin
import Mathlib.Data.List.Dedup
import Mathlib.Data.List.Sort
import Mathlib.Data.Rat.Floor
import Mathlib.Tactic.Linarith
import Mathlib.Tactic.Ring

/-!
# Signal models

Model of `hermespy/core/signal_model.py`.  A sample matrix with `M` streams is the list of its
columns; a column is a function from streams to samples.  Sample values are exact complex numbers.
-/

namespace Verif.Signal

/-- One column (all streams at one sampling instant) of a sample matrix. -/
abbrev Col (M : Nat) := Fin M → ℂ

/-- `SignalBlock`, `signal_model.py` 395-480: samples and non-negative offset. -/
structure Block (M : Nat) where
  offset : Nat
  cols : List (Col M)

/-- `SignalBlock.end`, `signal_model.py` 478-483. -/
def Block.stop {M : Nat} (b : Block M) : Nat := b.offset + b.cols.length

/-- The sample at time `t` represented by one block. -/
def Block.at {M : Nat} (b : Block M) (t : Nat) : Col M :=
  if b.offset ≤ t then (b.cols[t - b.offset]?).getD 0 else 0

/-- `SparseSignal.num_samples`, `signal_model.py` 1690-1695. -/
def numSamples {M : Nat} (bs : List (Block M)) : Nat :=
  match bs.getLast? with
  | none => 0
  | some b => b.stop

/-- numpy's `dense[:, off : off + w] = cols`: the slice is clipped to the array; a matrix of another
width than the clipped slice raises `ValueError`, except that one column broadcasts. -/
def assign {M : Nat} (d : List (Col M)) (off : Nat) (cols : List (Col M)) :
    Except PyErr (List (Col M)) :=
  if off + cols.length ≤ d.length then
    .ok (d.take off ++ cols ++ d.drop (off + cols.length))
  else if cols.length = 1 then .ok d
  else .error .value

/-- Assigning the blocks of a sparse signal one after the other. -/
def assignAll {M : Nat} : List (Block M) → List (Col M) → Except PyErr (List (Col M))
  | [], d => .ok d
  | b :: bs, d => do
    let d ← assign d b.offset b.cols
    assignAll bs d

/-- `SparseSignal.to_dense`, `signal_model.py` 1734-1740. -/
def toDense {M : Nat} (bs : List (Block M)) : Except PyErr (List (Col M)) :=
  assignAll bs (List.replicate (numSamples bs) 0)

/-- Neighbours `nz[i], nz[i+1]` with `ediff1d - 1` non-zero. -/
def gaps (nz : List Nat) : List (Nat × Nat) :=
  (nz.zip nz.tail).filter fun p => (p.2 : Int) - p.1 - 1 ≠ 0

/-- Offsets of the windows of consecutive indices, `signal_model.py` 1775-1781, 1826-1836. -/
def winStarts (nz : List Nat) : List Nat := nz.head?.toList ++ (gaps nz).map (·.2)

/-- Ends of the windows of consecutive indices, `signal_model.py` 1782-1785, 1829-1831. -/
def winStops (nz : List Nat) : List Nat :=
  (gaps nz).map (·.1 + 1) ++ (nz.getLast?.map (· + 1)).toList

/-- Windows of consecutive indices. -/
def windows (nz : List Nat) : List (Nat × Nat) := (winStarts nz).zip (winStops nz)

open Classical in
/-- Non-zero columns as computed by `np.sum(block, axis=0).nonzero()`, `signal_model.py` 1768-1770:
columns whose *sum over streams* is non-zero. -/
noncomputable def nonzeroCols {M : Nat} (cols : List (Col M)) : List Nat :=
  (List.range cols.length).filter fun i => ∑ m : Fin M, ((cols[i]?).getD 0) m ≠ 0

/-- `SparseSignal.__from_dense`, `signal_model.py` 1743-1796.  (`len(block.nonzero())` is the number
of axes, so the second half of the test in line 1764 is never true.) -/
noncomputable def fromDense {M : Nat} (cols : List (Col M)) (offset : Nat) : List (Block M) :=
  if cols.length = 0 then [⟨offset, []⟩]
  else (windows (nonzeroCols cols)).map fun w =>
    ⟨offset + w.1, (cols.drop w.1).take (w.2 - w.1)⟩

/-- `np.union1d`: sorted union without repetition. -/
def union1d (a b : List Nat) : List Nat := ((a ++ b).mergeSort (fun x y => decide (x ≤ y))).dedup

/-- Indices covered by blocks, `signal_model.py` 1811-1820. -/
def covered {M : Nat} (bs : List (Block M)) : List Nat :=
  bs.flatMap fun b => (List.range b.cols.length).map fun i => b.offset + i

/-- `SparseSignal._getblocks_union`, `signal_model.py` 1799-1838. -/
def blocksUnion {M : Nat} (a b : List (Block M)) : List (Nat × Nat) :=
  windows (union1d (covered a) (covered b))

/-- `u[:, ws:we] += src`; `ValueError` for a different width (broadcasting of one column is not
modelled: the widths always agree, see `addBlocks_spec`). -/
def addRange {M : Nat} (u : List (Col M)) (ws we : Nat) (src : List (Col M)) :
    Except PyErr (List (Col M)) :=
  if src.length = we - ws ∧ we ≤ u.length then
    .ok (u.take ws ++ List.zipWith (· + ·) ((u.drop ws).take (we - ws)) src ++ u.drop (max ws we))
  else .error .value

/-- The loop over the blocks of one signal inside one window, `signal_model.py` 2431-2452. -/
def addBlocks {M : Nat} (wOff wStop : Nat) : List (Block M) → List (Col M) →
    Except PyErr (List (Col M))
  | [], u => .ok u
  | b :: bs, u =>
    if b.stop < wOff then addBlocks wOff wStop bs u
    else if b.offset > wStop then .ok u
    else do
      let size := wStop - wOff
      let ws := b.offset - wOff
      let we := min size (b.offset + b.cols.length - wOff)
      let bs' := wOff - b.offset
      let be := min b.cols.length (wOff + size - b.offset)
      let u ← addRange u ws we ((b.cols.drop bs').take (be - bs'))
      addBlocks wOff wStop bs u

/-- Superposition of two block lists of equal rate and carrier, `signal_model.py` 2420-2463; without
any window the result is the sparsified empty matrix, a single empty block. -/
def superimposeBlocks {M : Nat} (a b : List (Block M)) : Except PyErr (List (Block M)) := do
  let r ← (blocksUnion a b).mapM fun w => do
    let u ← addBlocks w.1 w.2 a (List.replicate (w.2 - w.1) 0)
    let u ← addBlocks w.1 w.2 b u
    .ok ⟨w.1, u⟩
  .ok (if r.length = 0 then [⟨0, []⟩] else r)

/-! ### Python rounding -/

/-- Python's `round(x)`: nearest integer, ties to even. -/
def pyRound (x : ℚ) : ℤ :=
  let f := ⌊x⌋
  if x - f < 1 / 2 then f
  else if x - f > 1 / 2 then f + 1
  else if f % 2 = 0 then f else f + 1

/-! ### Signals with parameters -/

/-- `SparseSignal` of `M` streams, `signal_model.py` 1598-1663 (noise power and visualisation
attributes are carried along unchanged and not modelled). -/
structure Sparse (M : Nat) where
  blocks : List (Block M)
  rate : ℚ
  carrier : ℚ
  delay : ℚ

/-- One block of `SparseSignal.__getitem__` with a sample slice, `signal_model.py` 2087-2112; `none`
if the block is skipped.  `sel` selects the streams.  The bounds are Python integers and may be
negative; the step is positive (zero raises `ZeroDivisionError`, negative steps are not modelled).
The numpy slice `i0:i1:step` of a block always has non-negative bounds: skipped blocks aside,
`stop > offset`. -/
def sliceBlock {M M' : Nat} (sel : Fin M' → Fin M) (start stop : Int) (step : Nat) (b : Block M) :
    Option (Block M') :=
  if (b.offset : Int) ≥ stop ∨ (b.stop : Int) ≤ start then none
  else
    let i0 : Nat := (max (start - b.offset) 0).toNat
    let i0 : Nat := i0 + ((i0 + b.offset - start) % (step : Int)).toNat
    let i1 : Nat := (min (stop - b.offset) b.cols.length).toNat
    let picked := (List.range ((i1 - i0 + step - 1) / step)).map fun k =>
      fun m => ((b.cols[i0 + k * step]?).getD 0) (sel m)
    some ⟨((i0 + b.offset - start) / (step : Int)).toNat, picked⟩

/-- `SparseSignal.__getitem__` with a sample slice of positive step, `signal_model.py` 2040-2163.  A
missing start is zero, a missing stop the number of samples; negative bounds are used as they are. -/
def getSlice {M M' : Nat} (sel : Fin M' → Fin M) (start stop : Option Int) (step : Nat)
    (bs : List (Block M)) : List (Block M') :=
  bs.filterMap (sliceBlock sel (start.getD 0) (stop.getD (numSamples bs)) step)

/-- Stream validation and summation, `signal_model.py` 2396-2469, of blocks `bs` onto `s`: nothing
happens if the added signal has no stream (no blocks, or `M = 0`); a signal without blocks has no
stream itself, so that adding to it raises `ValueError` (line 2411). -/
def Sparse.addAligned {M : Nat} (s : Sparse M) (bs : List (Block M)) : Except PyErr (Sparse M) :=
  if M = 0 ∨ bs.length = 0 then .ok s
  else if s.blocks.length = 0 then .error .value
  else do
    let r ← superimposeBlocks s.blocks bs
    .ok { s with blocks := r }

/-- `SparseSignal.superimpose` with all streams of an added signal of the same sampling rate, carrier
and stream count, `signal_model.py` 2348-2469.  Returns the result and the added signal after the
call: lines 2389-2391 change the offsets of the argument's own blocks (`shared` is true for a sparse
argument; the blocks of a dense argument are fresh views, so the argument itself is unaffected). -/
def Sparse.superimpose {M : Nat} (s a : Sparse M) (shared : Bool) :
    Except PyErr (Sparse M × Sparse M) :=
  if s.delay > a.delay then
    let shift := (pyRound ((s.delay - a.delay) * a.rate)).toNat
    let bs := getSlice id (some shift) none 1 a.blocks
    if numSamples bs = 0 then .ok (s, a)
    else do
      let r ← s.addAligned bs
      .ok (r, a)
  else if s.delay < a.delay then
    let shift := (pyRound ((a.delay - s.delay) * a.rate)).toNat
    let bs := a.blocks.map fun b => { b with offset := b.offset + shift }
    do
      let r ← s.addAligned bs
      .ok (r, if shared then { a with blocks := bs } else a)
  else do
    let r ← s.addAligned a.blocks
    .ok (r, a)

/-! ### Specification vocabulary -/

/-- Blocks are sorted and do not overlap. -/
def WF {M : Nat} (bs : List (Block M)) : Prop := bs.Pairwise fun a b => a.stop ≤ b.offset

/-- Blocks are sorted, non-empty, and neither overlap nor touch. -/
def Separated {M : Nat} (bs : List (Block M)) : Prop :=
  (bs.Pairwise fun a b => a.stop < b.offset) ∧ ∀ b ∈ bs, b.cols ≠ []

/-- Sample `t` of a dense matrix, zero outside. -/
def sample {M : Nat} (d : List (Col M)) (t : Nat) : Col M := (d[t]?).getD 0

end Verif.Signal
