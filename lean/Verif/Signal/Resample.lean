import Verif.Signal.Slice
import Verif.Channel.Fading
import Mathlib.Analysis.SpecialFunctions.Trigonometric.Bounds
import Mathlib.Analysis.Real.Pi.Bounds
import Mathlib.Data.List.GetD
import Mathlib.Tactic.FieldSimp

/-!
# C133: resampling of signals

`SignalBlock.resample_block` with its subroutines, `DenseSignal.resample` and `SparseSignal.resample` of
`hermespy/core/signal_model.py`, and `delay_resampling_matrix` of `hermespy/tools/resampling.py`.  Rates are exact rational
numbers, samples exact complex numbers.  The filters of scipy are contracts.
-/

namespace Verif.Resample

open Verif (PyErr)
open Verif.Signal (pyRound)

/-! ### Model -/

/-- `np.sinc`. -/
noncomputable def sinc (x : ℝ) : ℝ := if x = 0 then 1 else Real.sin (Real.pi * x) / (Real.pi * x)

/-- A block of signal samples: one list per stream, the number of samples, and the offset. -/
structure Blk where
  rows : List (List ℂ)
  num : Nat
  offset : Nat

/-- The matrix is rectangular. -/
def Blk.Rect (b : Blk) : Prop := ∀ r ∈ b.rows, r.length = b.num

/-- What is assumed of the filters of scipy: they keep the number of samples. -/
structure Filters where
  /-- The filter of `scipy.signal.decimate`, by factor. -/
  decimation : ℕ → List ℂ → List ℂ
  /-- `sosfiltfilt` of the Butterworth filter of order 8, by relative cutoff. -/
  butterworth : ℚ → List ℂ → List ℂ
  butterworth_length : ∀ w x, (butterworth w x).length = x.length

/-- `sosfiltfilt` and the filter of `decimate` refuse signals not longer than their padding, 27 samples for the eighth order
filters used here. -/
def padlen : Nat := 27

/-- `_resample_antialiasing` of all rows, if wanted, `core/signal_model.py` 661-670. -/
def filterRows (wanted : Bool) (f : List ℂ → List ℂ) (rows : List (List ℂ)) (num : Nat) : Except PyErr (List (List ℂ)) :=
  if wanted = false then .ok rows else if num ≤ padlen then .error .value else .ok (rows.map f)

/-- One output sample of `_resample`, `core/signal_model.py` 706-714. -/
noncomputable def interpolate (old new : ℚ) (x : List ℂ) (n : Nat) : ℂ :=
  ∑ k ∈ Finset.range x.length, x.getD k 0 * (sinc (((k : ℝ) / old - n / new) * old) : ℂ)

/-- The number of output samples of `_resample`, `core/signal_model.py` 700. -/
def numOut (old new : ℚ) (N : Nat) : Nat := (pyRound (N * new / old)).toNat

/-- `_resample`, `core/signal_model.py` 674-716. -/
noncomputable def resampleRow (old new : ℚ) (x : List ℂ) : List ℂ :=
  (List.range (numOut old new x.length)).map (interpolate old new x)

/-- The number of samples `decimate` leaves. -/
def decimated (q N : Nat) : Nat := (N + q - 1) / q

/-- `scipy.signal.decimate` of a row. -/
def decimateRow (F : Filters) (q : Nat) (x : List ℂ) : List ℂ :=
  (List.range (decimated q x.length)).map fun n => (F.decimation q x).getD (n * q) 0

/-- `resample_block`, `core/signal_model.py` 513-584. -/
noncomputable def resampleBlock (F : Filters) (b : Blk) (old new : ℚ) (aa : Bool) : Except PyErr Blk :=
  if old ≤ 0 ∨ new ≤ 0 then .error .value
  else if old = new then .ok b
  else
    let off := (pyRound (b.offset * new / old)).toNat
    if b.num < 1 then .ok b
    else if b.rows.length < 1 then .ok ⟨[], ⌊b.num * new / old⌋.toNat, off⟩
    else if new < old ∧ (old / new).den = 1 then
      let q := (old / new).num.toNat
      if b.num ≤ padlen then .error .value
      else .ok ⟨b.rows.map (decimateRow F q), decimated q b.num, off⟩
    else do
      let rows ← filterRows (aa && new < old) (F.butterworth (new / old)) b.rows b.num
      let out := rows.map (resampleRow old new)
      let n := numOut old new b.num
      let rows' ← filterRows (aa && old < new) (F.butterworth (old / new)) out n
      .ok ⟨rows', n, off⟩

/-- `SparseSignal.resample`, `core/signal_model.py` 2335-2345: block by block. -/
noncomputable def resampleAll (F : Filters) (old new : ℚ) (aa : Bool) : List Blk → Except PyErr (List Blk)
  | [] => .ok []
  | b :: bs => do
    let x ← resampleBlock F b old new aa
    let xs ← resampleAll F old new aa bs
    .ok (x :: xs)

/-- A sample of a signal made of blocks: the sum over all blocks, which do not overlap. -/
noncomputable def sampleAt (bs : List Blk) (m n : Nat) : ℂ :=
  (bs.map fun b => if b.offset ≤ n then (b.rows.getD m []).getD (n - b.offset) 0 else 0).sum

/-- The end of a block, `core/signal_model.py` 478-483. -/
def Blk.stop (b : Blk) : Nat := b.offset + b.num

/-- Blocks are sorted and do not overlap, as the documentation of sparse signals in `core/signal_model.py` 1600-1607 says. -/
def Sorted (bs : List Blk) : Prop := bs.Pairwise fun a b => a.stop ≤ b.offset

/-! ### Interpolation -/

theorem sinc_zero : sinc 0 = 1 := if_pos rfl

theorem sinc_int (z : ℤ) (h : z ≠ 0) : sinc z = 0 := by
  unfold sinc
  rw [if_neg (by exact_mod_cast h), mul_comm Real.pi, Real.sin_int_mul_pi, zero_div]

theorem sinc_half : sinc (1 / 2) = 2 / Real.pi := by
  unfold sinc
  rw [if_neg (by norm_num), mul_one_div, Real.sin_pi_div_two]
  have := Real.pi_ne_zero
  field_simp

theorem sinc_neg (x : ℝ) : sinc (-x) = sinc x := by
  unfold sinc
  by_cases h : x = 0
  · simp [h]
  · rw [if_neg (by simpa using h), if_neg h, mul_neg, Real.sin_neg, neg_div_neg_eq]

theorem pyRound_int (z : ℤ) : pyRound (z : ℚ) = z := by
  simp [pyRound]

theorem pyRound_close (x : ℚ) : |(pyRound x : ℚ) - x| ≤ 1 / 2 := by
  have h1 := Int.floor_le x
  have h2 := Int.lt_floor_add_one x
  unfold pyRound
  dsimp only
  split
  · rw [abs_le]; constructor <;> linarith
  · split
    · push_cast; rw [abs_le]; constructor <;> linarith
    · split <;> (push_cast; rw [abs_le]; constructor <;> linarith)

/-- Outputs at the time of an input are that input. -/
theorem interpolate_grid (old new : ℚ) (ho : 0 < old) (hn : 0 < new) (x : List ℂ) (n k : Nat) (hk : k < x.length)
    (h : (n : ℚ) * old = k * new) : interpolate old new x n = x.getD k 0 := by
  have hoR : (0 : ℝ) < old := by exact_mod_cast ho
  have hnR : (0 : ℝ) < new := by exact_mod_cast hn
  have hR : (n : ℝ) * old = k * new := by exact_mod_cast h
  have harg : ∀ j : Nat, ((j : ℝ) / old - n / new) * old = ((j : ℤ) - (k : ℤ) : ℤ) := by
    intro j
    push_cast
    have : (n : ℝ) / new * old = k := by
      rw [div_mul_eq_mul_div, hR, mul_div_assoc, div_self hnR.ne', mul_one]
    rw [sub_mul, this, div_mul_cancel₀ _ hoR.ne']
  unfold interpolate
  rw [Finset.sum_eq_single k]
  · rw [harg, sub_self, Int.cast_zero, sinc_zero]; simp
  · intro j _ hj
    rw [harg, sinc_int _ (by omega)]; simp
  · intro hh
    exact absurd (Finset.mem_range.mpr hk) hh

/-! ### Blocks -/

/-- C133: rates which are not positive are refused. -/
theorem C133_refused (F : Filters) (b : Blk) (old new : ℚ) (aa : Bool) (h : old ≤ 0 ∨ new ≤ 0) :
    resampleBlock F b old new aa = .error .value := by
  unfold resampleBlock
  rw [if_pos h]

/-- C133: nothing happens at equal rates. -/
theorem C133_same (F : Filters) (b : Blk) (r : ℚ) (hr : 0 < r) (aa : Bool) : resampleBlock F b r r aa = .ok b := by
  unfold resampleBlock
  rw [if_neg (by rintro (h | h) <;> linarith), if_pos rfl]

/-- Resampling by interpolation, without a filter. -/
theorem resample_plain (F : Filters) (b : Blk) (old new : ℚ) (ho : 0 < old) (hn : 0 < new) (hne : old ≠ new)
    (hN : 0 < b.num) (hM : 0 < b.rows.length) (hd : ¬(new < old ∧ (old / new).den = 1)) :
    resampleBlock F b old new false = .ok ⟨b.rows.map (resampleRow old new), numOut old new b.num,
      (pyRound (b.offset * new / old)).toNat⟩ := by
  unfold resampleBlock
  rw [if_neg (by rintro (h | h) <;> linarith), if_neg hne]
  dsimp only
  rw [if_neg (by omega), if_neg (by omega), if_neg hd]
  rfl

theorem not_decimation {old new : ℚ} (h : old < new) : ¬(new < old ∧ (old / new).den = 1) := fun hh => by
  linarith [hh.1]

/-- C133: without the aliasing filter, samples whose time is that of a sample before are that sample: the signal runs
through its samples, in every stream. -/
theorem C133_grid_partial (F : Filters) (b : Blk) (hb : b.Rect) (old new : ℚ) (ho : 0 < old) (hn : 0 < new) (hne : old ≠ new)
    (hN : 0 < b.num) (hM : 0 < b.rows.length) (hd : ¬(new < old ∧ (old / new).den = 1)) :
    ∃ c, resampleBlock F b old new false = .ok c ∧ c.Rect ∧ c.rows.length = b.rows.length ∧
      ∀ m < b.rows.length, ∀ n k : Nat, n < c.num → k < b.num → (n : ℚ) / new = k / old →
        (c.rows.getD m []).getD n 0 = (b.rows.getD m []).getD k 0 := by
  refine ⟨_, resample_plain F b old new ho hn hne hN hM hd, ?_, by simp, ?_⟩
  · intro r hr
    obtain ⟨x, hx, rfl⟩ := List.mem_map.mp hr
    simp [resampleRow, hb x hx]
  · intro m hm n k hnc hk ht
    dsimp only at hnc ⊢
    have hrow : (b.rows.map (resampleRow old new)).getD m [] = resampleRow old new (b.rows.getD m []) := by
      rw [List.getD_eq_getElem _ _ (by simpa using hm), List.getElem_map, List.getD_eq_getElem _ _ hm]
    have hlen : (b.rows.getD m []).length = b.num := by
      rw [List.getD_eq_getElem _ _ hm]; exact hb _ (List.getElem_mem hm)
    rw [hrow, resampleRow, hlen, List.getD_eq_getElem _ _ (by simpa using hnc), List.getElem_map, List.getElem_range]
    refine interpolate_grid old new ho hn _ n k (by omega) ?_
    field_simp at ht
    rw [mul_comm (k : ℚ)]
    exact ht

/-- C133: upsampling by a whole factor without the aliasing filter multiplies the number of samples and the offset, and every
sample is found at its time. -/
theorem C133_upsample_partial (F : Filters) (b : Blk) (hb : b.Rect) (old : ℚ) (ho : 0 < old) (L : Nat) (hL : 2 ≤ L)
    (hN : 0 < b.num) (hM : 0 < b.rows.length) :
    ∃ c, resampleBlock F b old (L * old) false = .ok c ∧ c.Rect ∧ c.rows.length = b.rows.length ∧ c.num = L * b.num ∧
      c.offset = L * b.offset ∧ ∀ m < b.rows.length, ∀ k < b.num,
        (c.rows.getD m []).getD (L * k) 0 = (b.rows.getD m []).getD k 0 := by
  have hL' : (2 : ℚ) ≤ L := by exact_mod_cast hL
  have hn : 0 < (L : ℚ) * old := by positivity
  have hlt : old < L * old := by nlinarith
  have hr : ∀ N : Nat, (N : ℚ) * (L * old) / old = ((L * N : ℕ) : ℤ) := by
    intro N; push_cast; field_simp
  have hnum : numOut old (L * old) b.num = L * b.num := by
    unfold numOut; rw [hr, pyRound_int]; rfl
  have e := resample_plain F b old (L * old) ho hn hlt.ne hN hM (not_decimation hlt)
  obtain ⟨c, h1, h2, h3, h4⟩ := C133_grid_partial F b hb old (L * old) ho hn hlt.ne hN hM (not_decimation hlt)
  have hc : c = ⟨b.rows.map (resampleRow old (L * old)), numOut old (L * old) b.num,
      (pyRound (b.offset * (L * old) / old)).toNat⟩ := by
    rw [e] at h1; cases h1; rfl
  have hcn : c.num = L * b.num := by rw [hc]; exact hnum
  refine ⟨c, h1, h2, h3, hcn, ?_, fun m hm k hk => h4 m hm (L * k) k ?_ hk ?_⟩
  · rw [hc]; dsimp only; rw [hr, pyRound_int]; rfl
  · rw [hcn]; exact Nat.mul_lt_mul_of_pos_left hk (by omega)
  · push_cast; field_simp

example : ∃ b : Blk, b.Rect ∧ 0 < b.num ∧ 0 < b.rows.length :=
  ⟨⟨[[1, 2]], 2, 3⟩, by intro r hr; simp at hr; simp [hr], by decide, by decide⟩

/-- C133: interpolation is linear. -/
theorem C133_linear (old new : ℚ) (c : ℂ) (x y : List ℂ) (h : x.length = y.length) :
    resampleRow old new (List.zipWith (fun a b => c * a + b) x y) =
      List.zipWith (fun a b => c * a + b) (resampleRow old new x) (resampleRow old new y) := by
  unfold resampleRow
  rw [List.zipWith_map, show numOut old new y.length = numOut old new x.length by rw [h], List.zipWith_self,
    show (List.zipWith (fun a b => c * a + b) x y).length = x.length by simp [h]]
  refine List.map_congr_left fun n _ => ?_
  unfold interpolate
  rw [show (List.zipWith (fun a b => c * a + b) x y).length = x.length by simp [h], ← h, Finset.mul_sum, ← Finset.sum_add_distrib]
  refine Finset.sum_congr rfl fun k hk => ?_
  have hk' := Finset.mem_range.mp hk
  rw [List.getD_eq_getElem _ _ (by simp [h]; omega), List.getD_eq_getElem _ _ hk', List.getD_eq_getElem _ _ (by omega),
    List.getElem_zipWith]
  ring

/-- C133: durations are kept up to half a sample by interpolation, and up to a sample, not shorter, by decimation. -/
theorem C133_duration (F : Filters) (b : Blk) (old new : ℚ) (ho : 0 < old) (hn : 0 < new) (aa : Bool)
    (hN : 0 < b.num) (hM : 0 < b.rows.length) (c : Blk) (h : resampleBlock F b old new aa = .ok c) :
    |(c.num : ℚ) / new - b.num / old| < 1 / new := by
  unfold resampleBlock at h
  rw [if_neg (by rintro (h | h) <;> linarith)] at h
  by_cases hne : old = new
  · rw [if_pos hne] at h; cases h; rw [hne, sub_self, abs_zero]; positivity
  rw [if_neg hne] at h
  dsimp only at h
  rw [if_neg (by omega), if_neg (by omega)] at h
  by_cases hd : new < old ∧ (old / new).den = 1
  · rw [if_pos hd] at h
    by_cases hp : b.num ≤ padlen
    · rw [if_pos hp] at h; cases h
    rw [if_neg hp] at h
    cases h
    dsimp only
    set q := (old / new).num.toNat with hq
    have hpos : 0 < old / new := by positivity
    have hnum : 0 < (old / new).num := Rat.num_pos.mpr hpos
    have hqe : old = q * new := by
      have h1 : (old / new) = ((old / new).num : ℚ) := by
        conv_lhs => rw [← Rat.num_div_den (old / new), hd.2]
        simp
      have h2 : ((q : ℤ) : ℚ) = ((old / new).num : ℚ) := by rw [hq, Int.toNat_of_nonneg hnum.le]
      have h3 : old / new = q := by rw [h1, ← h2]; simp
      field_simp at h3
      linarith
    have hq0 : 0 < q := by omega
    have hq0' : (0 : ℚ) < q := by exact_mod_cast hq0
    have hlo : b.num ≤ decimated q b.num * q := by
      unfold decimated
      have := Nat.div_add_mod (b.num + q - 1) q
      have h2 := Nat.mod_lt (b.num + q - 1) hq0
      rw [mul_comm]
      omega
    have hhi : decimated q b.num * q < b.num + q := by
      unfold decimated
      have := Nat.div_mul_le_self (b.num + q - 1) q
      omega
    have hlo' : (b.num : ℚ) ≤ decimated q b.num * q := by exact_mod_cast hlo
    have hhi' : (decimated q b.num : ℚ) * q < b.num + q := by exact_mod_cast hhi
    have he : (decimated q b.num : ℚ) / new - b.num / old = (decimated q b.num * q - b.num) / (q * new) := by
      rw [hqe]; field_simp
    rw [he, abs_of_nonneg (div_nonneg (by linarith) (by positivity)), div_lt_div_iff₀ (by positivity) hn]
    nlinarith
  · rw [if_neg hd] at h
    have hnumc : c.num = numOut old new b.num := by
      have aux : ∀ (p q : Except PyErr (List (List ℂ))) (f : List (List ℂ) → List (List ℂ)) (g : List (List ℂ) → Except PyErr (List (List ℂ)))
          (off : Nat), (p >>= fun rows => g (f rows) >>= fun rows' => Except.ok (⟨rows', numOut old new b.num, off⟩ : Blk)) = .ok c →
          c.num = numOut old new b.num := by
        intro p _ f g off hh
        cases p with
        | error e => cases hh
        | ok r =>
          change (g (f r) >>= _) = _ at hh
          cases hg : g (f r) with
          | error e => rw [hg] at hh; cases hh
          | ok r' => rw [hg] at hh; cases hh; rfl
      exact aux _ (.ok []) (fun rows => rows.map (resampleRow old new)) (fun out =>
        filterRows (aa && old < new) (F.butterworth (old / new)) out (numOut old new b.num)) _ h
    have hc := pyRound_close (b.num * new / old)
    have h0 : 0 ≤ pyRound ((b.num : ℚ) * new / old) := Verif.Signal.pyRound_nonneg (by positivity)
    have hcast : ((c.num : ℕ) : ℚ) = (pyRound ((b.num : ℚ) * new / old) : ℚ) := by
      rw [hnumc, numOut]
      have : (((pyRound ((b.num : ℚ) * new / old)).toNat : ℤ) : ℚ) = (pyRound ((b.num : ℚ) * new / old) : ℚ) := by
        rw [Int.toNat_of_nonneg h0]
      exact_mod_cast this
    have he : (c.num : ℚ) / new - b.num / old = ((c.num : ℚ) - b.num * new / old) / new := by field_simp
    rw [he, abs_div, abs_of_pos hn, hcast]
    exact div_lt_div_of_pos_right (by linarith) hn

/-- C133: whatever is returned is a matrix of as many streams as before. -/
theorem C133_shape (F : Filters) (b : Blk) (hb : b.Rect) (old new : ℚ) (aa : Bool) (c : Blk)
    (h : resampleBlock F b old new aa = .ok c) : c.Rect ∧ c.rows.length = b.rows.length := by
  have hfil : ∀ w g rows n r, filterRows w (F.butterworth g) rows n = .ok r → (∀ x ∈ rows, x.length = n) →
      (∀ x ∈ r, x.length = n) ∧ r.length = rows.length := by
    intro w g rows n r hr hx
    unfold filterRows at hr
    by_cases hw : w = false
    · rw [if_pos hw] at hr; cases hr; exact ⟨hx, rfl⟩
    rw [if_neg hw] at hr
    by_cases hp : n ≤ padlen
    · rw [if_pos hp] at hr; cases hr
    rw [if_neg hp] at hr
    cases hr
    refine ⟨fun y hy => ?_, by simp⟩
    obtain ⟨x, hx', rfl⟩ := List.mem_map.mp hy
    rw [F.butterworth_length, hx x hx']
  unfold resampleBlock at h
  by_cases h0 : old ≤ 0 ∨ new ≤ 0
  · rw [if_pos h0] at h; cases h
  rw [if_neg h0] at h
  by_cases hne : old = new
  · rw [if_pos hne] at h; cases h; exact ⟨hb, rfl⟩
  rw [if_neg hne] at h
  dsimp only at h
  by_cases hN : b.num < 1
  · rw [if_pos hN] at h; cases h; exact ⟨hb, rfl⟩
  rw [if_neg hN] at h
  by_cases hM : b.rows.length < 1
  · rw [if_pos hM] at h; cases h; exact ⟨fun r hr => by simp at hr, by simp; omega⟩
  rw [if_neg hM] at h
  by_cases hd : new < old ∧ (old / new).den = 1
  · rw [if_pos hd] at h
    by_cases hp : b.num ≤ padlen
    · rw [if_pos hp] at h; cases h
    rw [if_neg hp] at h
    cases h
    refine ⟨fun r hr => ?_, by simp⟩
    obtain ⟨x, hx, rfl⟩ := List.mem_map.mp hr
    simp [decimateRow, hb x hx]
  rw [if_neg hd] at h
  cases hf : filterRows (aa && decide (new < old)) (F.butterworth (new / old)) b.rows b.num with
  | error e => rw [hf] at h; cases h
  | ok r =>
    rw [hf] at h
    obtain ⟨f1, f2⟩ := hfil _ _ _ _ _ hf hb
    change (filterRows _ _ _ _ >>= _) = _ at h
    cases hg : filterRows (aa && decide (old < new)) (F.butterworth (old / new)) (r.map (resampleRow old new))
        (numOut old new b.num) with
    | error e => rw [hg] at h; cases h
    | ok r' =>
      rw [hg] at h
      cases h
      obtain ⟨g1, g2⟩ := hfil _ _ _ _ _ hg (by
        intro y hy
        obtain ⟨x, hx, rfl⟩ := List.mem_map.mp hy
        simp [resampleRow, f1 x hx])
      exact ⟨g1, by simp only [g2, List.length_map, f2]⟩

/-- C133: constant signals do not remain constant.  Between two samples of one, upsampling by two without the aliasing
filter gives `4 / π`. -/
theorem C133_constant_fails (F : Filters) (old : ℚ) (ho : 0 < old) (o : Nat) :
    ∃ c, resampleBlock F ⟨[[1, 1]], 2, o⟩ old (2 * old) false = .ok c ∧
      (c.rows.getD 0 []).getD 1 0 = ((4 / Real.pi : ℝ) : ℂ) ∧ (6 : ℝ) / 5 < 4 / Real.pi := by
  have hlt : old < 2 * old := by linarith
  have hoR : (0 : ℝ) < old := by exact_mod_cast ho
  have hnum : numOut old (2 * old) 2 = 4 := by
    unfold numOut
    rw [show ((2 : ℕ) : ℚ) * (2 * old) / old = ((4 : ℤ) : ℚ) by push_cast; field_simp; norm_num, pyRound_int]; rfl
  refine ⟨_, resample_plain F _ old (2 * old) ho (by linarith) hlt.ne (Nat.succ_pos 1) (by simp) (not_decimation hlt), ?_, ?_⟩
  · simp only [List.map_cons, List.map_nil, List.getD_cons_zero, resampleRow, List.length_cons, List.length_nil, zero_add,
      Nat.reduceAdd, hnum]
    rw [List.getD_eq_getElem _ _ (by simp), List.getElem_map, List.getElem_range]
    simp only [interpolate, List.length_cons, List.length_nil, zero_add, Nat.reduceAdd, Finset.sum_range_succ,
      Finset.sum_range_zero, List.getD_cons_zero, List.getD_cons_succ, one_mul]
    have e0 : (((0 : ℕ) : ℝ) / old - (1 : ℕ) / ((2 * old : ℚ) : ℝ)) * old = -(1 / 2) := by
      push_cast; field_simp; norm_num
    have e1 : (((1 : ℕ) : ℝ) / old - (1 : ℕ) / ((2 * old : ℚ) : ℝ)) * old = 1 / 2 := by
      push_cast; field_simp; norm_num
    rw [e0, e1, sinc_neg, sinc_half]
    push_cast; ring
  · have h1 := Real.pi_lt_d2
    have h2 := Real.pi_pos
    rw [div_lt_div_iff₀ (by norm_num) h2]
    linarith

/-- C133: disabling the aliasing filter has no effect on downsampling by whole factors. -/
theorem C133_filter_fails (F : Filters) (b : Blk) (new : ℚ) (hn : 0 < new) (q : Nat) (hq : 2 ≤ q) (aa : Bool) (hN : padlen < b.num)
    (hM : 0 < b.rows.length) :
    resampleBlock F b (q * new) new aa =
      .ok ⟨b.rows.map (decimateRow F q), decimated q b.num, (pyRound (b.offset * new / (q * new))).toNat⟩ := by
  have hq' : (2 : ℚ) ≤ q := by exact_mod_cast hq
  have hlt : new < q * new := by nlinarith
  have hdiv : (q : ℚ) * new / new = ((q : ℤ) : ℚ) := by push_cast; field_simp
  have hp : padlen = 27 := rfl
  unfold resampleBlock
  rw [if_neg (by rintro (h | h) <;> nlinarith), if_neg hlt.ne']
  dsimp only
  rw [if_neg (by omega), if_neg (by omega), if_pos ⟨hlt, by rw [hdiv]; exact Rat.den_intCast _⟩, if_neg (by omega), hdiv]
  simp

/-- C133: downsampling by whole factors shows signals the filter of the decimation lets pass at the time they were sampled at: sample `n` of the result
is sample `n * q` of the signal. -/
theorem C133_decimate_partial (F : Filters) (b : Blk) (hb : b.Rect) (new : ℚ) (hn : 0 < new) (q : Nat) (hq : 2 ≤ q) (aa : Bool) (hN : padlen < b.num)
    (hM : 0 < b.rows.length) (hF : ∀ x ∈ b.rows, F.decimation q x = x) :
    ∃ c, resampleBlock F b (q * new) new aa = .ok c ∧ c.rows.length = b.rows.length ∧
      ∀ m, m < b.rows.length → ∀ n, n * q < b.num → (c.rows.getD m []).getD n 0 = (b.rows.getD m []).getD (n * q) 0 := by
  refine ⟨_, C133_filter_fails F b new hn q hq aa hN hM, by simp, ?_⟩
  intro m hm n hnq
  have hx : b.rows.getD m [] = b.rows[m] := by rw [List.getD_eq_getElem?_getD, List.getElem?_eq_getElem hm]; rfl
  have hlen := hb b.rows[m] (List.getElem_mem hm)
  have hlt : n < decimated q b.rows[m].length := by
    unfold decimated
    rw [hlen, Nat.lt_iff_add_one_le, Nat.le_div_iff_mul_le (by omega), Nat.add_mul]
    omega
  rw [hx]
  simp only [List.getD_eq_getElem?_getD, List.getElem?_map, List.getElem?_eq_getElem hm, Option.map_some, Option.getD_some, decimateRow,
    List.getElem?_range hlt, hF _ (List.getElem_mem hm)]

example : ∃ (F : Filters) (b : Blk), b.Rect ∧ padlen < b.num ∧ 0 < b.rows.length ∧ ∀ x ∈ b.rows, F.decimation 2 x = x :=
  ⟨⟨fun _ x => x, fun _ x => x, fun _ _ => rfl⟩, ⟨[List.replicate 28 1], 28, 0⟩, by simp [Blk.Rect], by decide, by simp, by simp⟩

/-- C133: with the aliasing filter, which is the default, and by whole factors always, short signals cannot be downsampled. -/
theorem C133_short_fails (F : Filters) (b : Blk) (old new : ℚ) (hn : 0 < new) (hlt : new < old) (hN : 0 < b.num)
    (hs : b.num ≤ 27) (hM : 0 < b.rows.length) : resampleBlock F b old new true = .error .value := by
  unfold resampleBlock
  rw [if_neg (by rintro (h | h) <;> linarith), if_neg hlt.ne']
  dsimp only
  rw [if_neg (by omega), if_neg (by omega)]
  by_cases hd : new < old ∧ (old / new).den = 1
  · rw [if_pos hd, if_pos (by exact hs)]
  · rw [if_neg hd, filterRows, if_neg (by simp [hlt]), if_pos (by exact hs)]
    rfl

/-- C133: short signals cannot be upsampled with the aliasing filter either, if the result is short. -/
theorem C133_short_up_fails (F : Filters) (b : Blk) (old : ℚ) (ho : 0 < old) (L : Nat) (hL : 2 ≤ L) (hN : 0 < b.num)
    (hs : L * b.num ≤ 27) (hM : 0 < b.rows.length) : resampleBlock F b old (L * old) true = .error .value := by
  have hL' : (2 : ℚ) ≤ L := by exact_mod_cast hL
  have hlt : old < L * old := by nlinarith
  have hr : (b.num : ℚ) * (L * old) / old = ((L * b.num : ℕ) : ℤ) := by
    push_cast; field_simp
  have hnum : numOut old (L * old) b.num = L * b.num := by
    unfold numOut; rw [hr, pyRound_int]; rfl
  unfold resampleBlock
  rw [if_neg (by rintro (h | h) <;> nlinarith), if_neg hlt.ne]
  dsimp only
  rw [if_neg (by omega), if_neg (by omega), if_neg (not_decimation hlt), hnum]
  rw [show filterRows (true && decide ((L : ℚ) * old < old)) (F.butterworth (L * old / old)) b.rows b.num = .ok b.rows from
    if_pos (by simp [hlt.le])]
  show (filterRows _ _ _ _ >>= _) = _
  rw [filterRows, if_neg (by simp [hlt]), if_pos (by exact hs)]
  rfl

/-- C133: signals without streams get another number of samples than those with streams. -/
theorem C133_streams_fails (F : Filters) (aa : Bool) (row : List ℂ) :
    ∃ c d, resampleBlock F ⟨[], 31, 0⟩ 2 1 aa = .ok c ∧ resampleBlock F ⟨[row], 31, 0⟩ 2 1 aa = .ok d ∧ c.num = 15 ∧ d.num = 16 := by
  refine ⟨⟨[], 15, 0⟩, ⟨[row].map (decimateRow F 2), 16, 0⟩, ?_, ?_, rfl, rfl⟩
  · unfold resampleBlock
    rw [if_neg (by norm_num), if_neg (by norm_num)]
    dsimp only
    rw [if_neg (by norm_num), if_pos (by simp)]
    rw [show ⌊((31 : ℕ) : ℚ) * 1 / 2⌋ = 15 by decide +kernel, show pyRound (((0 : ℕ) : ℚ) * 1 / 2) = 0 by decide +kernel]
    rfl
  · have := C133_filter_fails F ⟨[row], 31, 0⟩ 1 (by norm_num) 2 le_rfl aa (by show 27 < 31; decide) (by simp)
    dsimp only at this
    rw [show ((2 : ℕ) : ℚ) * 1 = 2 by norm_num, show pyRound (((0 : ℕ) : ℚ) * 1 / 2) = 0 by decide +kernel] at this
    exact this

/-- C133: blocks without samples stay at their offset, which counts samples of the former rate. -/
theorem C133_empty_fails (F : Filters) (rows : List (List ℂ)) (o : Nat) (old new : ℚ) (ho : 0 < old) (hn : 0 < new) (aa : Bool) :
    resampleBlock F ⟨rows, 0, o⟩ old new aa = .ok ⟨rows, 0, o⟩ := by
  unfold resampleBlock
  rw [if_neg (by rintro (h | h) <;> linarith)]
  split
  · rfl
  · rfl

/-! ### Sparse signals -/

/-- C133: upsampling sparse signals by whole factors without the aliasing filter leaves blocks sorted and apart, and every
sample at its time. -/
theorem C133_sparse_partial (F : Filters) (bs : List Blk) (M : Nat) (hM : 0 < M) (old : ℚ) (ho : 0 < old) (L : Nat) (hL : 2 ≤ L)
    (hb : ∀ b ∈ bs, b.Rect ∧ 0 < b.num ∧ b.rows.length = M) (hs : Sorted bs) :
    ∃ cs, resampleAll F old (L * old) false bs = .ok cs ∧ Sorted cs ∧ cs.length = bs.length ∧
      ∀ m < M, ∀ k, sampleAt cs m (L * k) = sampleAt bs m k := by
  suffices ∃ cs, resampleAll F old (L * old) false bs = .ok cs ∧ Sorted cs ∧ cs.length = bs.length ∧
      (∀ c ∈ cs, ∃ b ∈ bs, c.offset = L * b.offset ∧ c.num = L * b.num) ∧
      ∀ m < M, ∀ k, sampleAt cs m (L * k) = sampleAt bs m k by
    obtain ⟨cs, h1, h2, h3, -, h4⟩ := this
    exact ⟨cs, h1, h2, h3, h4⟩
  induction bs with
  | nil => exact ⟨[], rfl, List.Pairwise.nil, rfl, by simp, fun _ _ _ => rfl⟩
  | cons b bs ih =>
    obtain ⟨hs1, hs2⟩ := List.pairwise_cons.mp hs
    obtain ⟨cs, h1, h2, h3, h4, h5⟩ := ih (fun x hx => hb x (List.mem_cons_of_mem _ hx)) hs2
    obtain ⟨hrect, hN, hrows⟩ := hb b List.mem_cons_self
    obtain ⟨c, e1, e2, e3, e4, e5, e6⟩ := C133_upsample_partial F b hrect old ho L hL hN (by omega)
    refine ⟨c :: cs, ?_, ?_, by simp [h3], ?_, ?_⟩
    · simp only [resampleAll, e1, h1]
      rfl
    · refine List.pairwise_cons.mpr ⟨fun d hd => ?_, h2⟩
      obtain ⟨x, hx, hx1, -⟩ := h4 d hd
      have := hs1 x hx
      unfold Blk.stop at this ⊢
      rw [e4, e5, hx1, ← mul_add]
      exact Nat.mul_le_mul_left L this
    · intro d hd
      rcases List.mem_cons.mp hd with rfl | hd
      · exact ⟨b, List.mem_cons_self, e5, e4⟩
      · obtain ⟨x, hx, hh⟩ := h4 d hd
        exact ⟨x, List.mem_cons_of_mem _ hx, hh⟩
    · intro m hm k
      have h5' := h5 m hm k
      unfold sampleAt at h5' ⊢
      rw [List.map_cons, List.map_cons, List.sum_cons, List.sum_cons, h5']
      congr 1
      rw [e5]
      by_cases hk : b.offset ≤ k
      · rw [if_pos (Nat.mul_le_mul_left L hk), if_pos hk, ← Nat.mul_sub]
        by_cases hj : k - b.offset < b.num
        · exact e6 m (by omega) _ hj
        · have hbl : (b.rows.getD m []).length = b.num := by
            rw [List.getD_eq_getElem _ _ (by omega)]; exact hrect _ (List.getElem_mem _)
          have hcl : (c.rows.getD m []).length = c.num := by
            rw [List.getD_eq_getElem _ _ (by omega)]; exact e2 _ (List.getElem_mem _)
          rw [List.getD_eq_default (b.rows.getD m []) _ (by rw [hbl]; omega),
            List.getD_eq_default (c.rows.getD m []) _ (by rw [hcl, e4]; exact Nat.mul_le_mul_left L (by omega))]
      · rw [if_neg hk, if_neg (by
          intro hh; exact hk (Nat.le_of_mul_le_mul_left hh (by omega)))]

example : ∃ bs : List Blk, bs.length = 2 ∧ (∀ b ∈ bs, b.Rect ∧ 0 < b.num ∧ b.rows.length = 1) ∧ Sorted bs :=
  ⟨[⟨[[1, 2]], 2, 0⟩, ⟨[[3]], 1, 5⟩], rfl, by simp [Blk.Rect], by simp [Sorted, Blk.stop]⟩

/-- C133: resampling a sparse signal is not resampling its samples: what interpolation adds beyond a block is missing.  Of
three samples 1, 0, 1, upsampled by two, sparse signals have `2 / π` at the second, dense ones `4 / (3 π)`. -/
theorem C133_sparse_fails (F : Filters) (old : ℚ) (ho : 0 < old) :
    ∃ cs c, resampleAll F old (2 * old) false [⟨[[1]], 1, 0⟩, ⟨[[1]], 1, 2⟩] = .ok cs ∧
      resampleBlock F ⟨[[1, 0, 1]], 3, 0⟩ old (2 * old) false = .ok c ∧
      (∀ k, sampleAt [⟨[[1]], 1, 0⟩, ⟨[[1]], 1, 2⟩] 0 k = sampleAt [⟨[[1, 0, 1]], 3, 0⟩] 0 k) ∧
      sampleAt cs 0 1 = ((2 / Real.pi : ℝ) : ℂ) ∧ sampleAt [c] 0 1 = ((4 / (3 * Real.pi) : ℝ) : ℂ) := by
  have hlt : old < 2 * old := by linarith
  have hoR : (0 : ℝ) < old := by exact_mod_cast ho
  have hr : ∀ N : Nat, (N : ℚ) * (2 * old) / old = ((2 * N : ℕ) : ℤ) := by
    intro N; push_cast; field_simp
  have hnum : ∀ N, numOut old (2 * old) N = 2 * N := by
    intro N; unfold numOut; rw [hr, pyRound_int]; rfl
  have hp : ∀ rows N o, 0 < N → 0 < rows.length → resampleBlock F ⟨rows, N, o⟩ old (2 * old) false =
      .ok ⟨rows.map (resampleRow old (2 * old)), 2 * N, 2 * o⟩ := by
    intro rows N o hN hM
    rw [resample_plain F ⟨rows, N, o⟩ old (2 * old) ho (by linarith) hlt.ne hN hM (not_decimation hlt)]
    dsimp only
    rw [hnum, hr, pyRound_int]
    rfl
  have a0 : (((0 : ℕ) : ℝ) / old - (1 : ℕ) / ((2 * old : ℚ) : ℝ)) * old = -(1 / 2) := by
    push_cast; field_simp; norm_num
  have a2 : (((2 : ℕ) : ℝ) / old - (1 : ℕ) / ((2 * old : ℚ) : ℝ)) * old = 3 / 2 := by
    push_cast; field_simp; norm_num
  have s3 : sinc (3 / 2) = -(2 / (3 * Real.pi)) := by
    unfold sinc
    rw [if_neg (by norm_num), show Real.pi * (3 / 2) = Real.pi / 2 + Real.pi by ring, Real.sin_add_pi, Real.sin_pi_div_two]
    have := Real.pi_ne_zero
    field_simp
    ring
  refine ⟨[⟨[[1]].map (resampleRow old (2 * old)), 2 * 1, 2 * 0⟩, ⟨[[1]].map (resampleRow old (2 * old)), 2 * 1, 2 * 2⟩],
    ⟨[[1, 0, 1]].map (resampleRow old (2 * old)), 2 * 3, 2 * 0⟩, ?_, hp _ _ _ (by decide) (by simp), ?_, ?_, ?_⟩
  · simp only [resampleAll, hp [[1]] 1 0 (by decide) (by simp), hp [[1]] 1 2 (by decide) (by simp)]
    rfl
  · intro k
    simp only [sampleAt, List.map_cons, List.map_nil, List.sum_cons, List.sum_nil, Nat.zero_le, if_true, Nat.sub_zero,
      List.getD_cons_zero, add_zero]
    match k with
    | 0 => simp
    | 1 => simp
    | 2 => simp
    | k + 3 => simp
  · simp only [sampleAt, List.map_cons, List.map_nil, List.sum_cons, List.sum_nil, mul_zero, Nat.zero_le, if_true, Nat.sub_zero,
      List.getD_cons_zero, add_zero, Nat.reduceMul]
    rw [if_neg (by omega), add_zero, resampleRow, List.getD_eq_getElem _ _ (by simp [hnum]), List.getElem_map, List.getElem_range]
    simp only [interpolate, List.length_cons, List.length_nil, zero_add, Finset.sum_range_one, List.getD_cons_zero, one_mul]
    rw [a0, sinc_neg, sinc_half]
  · simp only [sampleAt, List.map_cons, List.map_nil, List.sum_cons, List.sum_nil, mul_zero, Nat.zero_le, if_true, Nat.sub_zero,
      List.getD_cons_zero, add_zero]
    rw [resampleRow, List.getD_eq_getElem _ _ (by simp [hnum]), List.getElem_map, List.getElem_range]
    simp only [interpolate, List.length_cons, List.length_nil, zero_add, Nat.reduceAdd, Finset.sum_range_succ,
      Finset.sum_range_zero, List.getD_cons_zero, List.getD_cons_succ, one_mul, zero_mul, add_zero]
    rw [a0, a2, sinc_neg, sinc_half, s3]
    push_cast
    have : (Real.pi : ℂ) ≠ 0 := by exact_mod_cast Real.pi_ne_zero
    field_simp
    ring

/-- C133: blocks of sparse signals which do not overlap may overlap after downsampling: of two adjacent blocks of 29 samples,
the second starts within the first at half the rate. -/
theorem C133_overlap_fails (F : Filters) (x y : List ℂ) (aa : Bool) :
    Sorted [⟨[x], 29, 0⟩, ⟨[y], 29, 29⟩] ∧
      ∃ cs, resampleAll F 2 1 aa [⟨[x], 29, 0⟩, ⟨[y], 29, 29⟩] = .ok cs ∧ ¬Sorted cs := by
  refine ⟨by simp [Sorted, Blk.stop], [⟨[x].map (decimateRow F 2), 15, 0⟩, ⟨[y].map (decimateRow F 2), 15, 14⟩], ?_,
    by simp [Sorted, Blk.stop]⟩
  have h1 := C133_filter_fails F ⟨[x], 29, 0⟩ 1 (by norm_num) 2 le_rfl aa (by show 27 < 29; decide) (by simp)
  have h2 := C133_filter_fails F ⟨[y], 29, 29⟩ 1 (by norm_num) 2 le_rfl aa (by show 27 < 29; decide) (by simp)
  have r1 : pyRound (((0 : ℕ) : ℚ) * 1 / (((2 : ℕ) : ℚ) * 1)) = 0 := by decide +kernel
  have r2 : pyRound (((29 : ℕ) : ℚ) * 1 / (((2 : ℕ) : ℚ) * 1)) = 14 := by decide +kernel
  dsimp only at h1 h2
  rw [r1] at h1
  rw [r2] at h2
  have e2 : ((2 : ℕ) : ℚ) * 1 = 2 := by norm_num
  rw [e2] at h1 h2
  simp only [resampleAll, h1, h2]
  rfl

/-! ### Offsets -/

/-- C133: offsets of blocks with samples are kept up to half a sample. -/
theorem C133_offset (F : Filters) (b : Blk) (old new : ℚ) (ho : 0 < old) (hn : 0 < new) (aa : Bool)
    (hN : 0 < b.num) (c : Blk) (h : resampleBlock F b old new aa = .ok c) :
    |(c.offset : ℚ) / new - b.offset / old| ≤ 1 / (2 * new) := by
  by_cases hne : old = new
  · subst hne
    rw [C133_same F b old ho aa] at h
    cases h
    rw [sub_self, abs_zero]; positivity
  have hoff : c.offset = (pyRound (b.offset * new / old)).toNat := by
    unfold resampleBlock at h
    rw [if_neg (by rintro (h | h) <;> linarith), if_neg hne] at h
    dsimp only at h
    rw [if_neg (by omega)] at h
    by_cases hM : b.rows.length < 1
    · rw [if_pos hM] at h; cases h; rfl
    rw [if_neg hM] at h
    by_cases hd : new < old ∧ (old / new).den = 1
    · rw [if_pos hd] at h
      by_cases hp : b.num ≤ padlen
      · rw [if_pos hp] at h; cases h
      · rw [if_neg hp] at h; cases h; rfl
    · rw [if_neg hd] at h
      cases hf : filterRows (aa && decide (new < old)) (F.butterworth (new / old)) b.rows b.num with
      | error e => rw [hf] at h; cases h
      | ok r =>
        rw [hf] at h
        change (filterRows _ _ _ _ >>= _) = _ at h
        cases hg : filterRows (aa && decide (old < new)) (F.butterworth (old / new)) (r.map (resampleRow old new))
            (numOut old new b.num) with
        | error e => rw [hg] at h; cases h
        | ok r' => rw [hg] at h; cases h; rfl
  have hc := pyRound_close (b.offset * new / old)
  have h0 : 0 ≤ pyRound ((b.offset : ℚ) * new / old) := Verif.Signal.pyRound_nonneg (by positivity)
  have hcast : ((c.offset : ℕ) : ℚ) = (pyRound ((b.offset : ℚ) * new / old) : ℚ) := by
    rw [hoff]
    have : (((pyRound ((b.offset : ℚ) * new / old)).toNat : ℤ) : ℚ) = (pyRound ((b.offset : ℚ) * new / old) : ℚ) := by
      rw [Int.toNat_of_nonneg h0]
    exact_mod_cast this
  have he : (c.offset : ℚ) / new - b.offset / old = ((c.offset : ℚ) - b.offset * new / old) / new := by field_simp
  rw [he, abs_div, abs_of_pos hn, hcast, div_le_div_iff₀ hn (by positivity)]
  nlinarith

/-! ### Delays -/

/-- Row and column of `delay_resampling_matrix`, `tools/resampling.py` 59-60, the delay in samples. -/
noncomputable def delayEntry (d : ℚ) (n k : Nat) : ℝ := sinc (((n : ℝ) - d) - k)

/-- The number of rows of `delay_resampling_matrix`, `tools/resampling.py` 49-57: the length wanted, or that of the input
grown, or for negative delays shrunk, by the delay. -/
def delayRows (N : Nat) (d : ℚ) (out : Int) : Nat :=
  if out < 0 then ((N : ℤ) + ⌈|d|⌉ * SignType.sign d).toNat else out.toNat

/-- The product of the matrix with a signal. -/
noncomputable def delayed (d : ℚ) (out : Int) (x : List ℂ) : List ℂ :=
  (List.range (delayRows x.length d out)).map fun n =>
    ∑ k ∈ Finset.range x.length, (delayEntry d n k : ℂ) * x.getD k 0

/-- C133: delays of a whole number of samples, positive or negative, shift the signal by it, and cut or extend it with
zeros, whatever the number of output samples. -/
theorem C133_delay (z : ℤ) (out : Int) (x : List ℂ) (n : Nat) (hn : n < (delayed z out x).length) :
    (delayed z out x).getD n 0 = if 0 ≤ (n : ℤ) - z then x.getD ((n : ℤ) - z).toNat 0 else 0 := by
  have harg : ∀ k : Nat, delayEntry z n k = if (n : ℤ) - z = k then 1 else 0 := by
    intro k
    unfold delayEntry
    have : ((n : ℝ) - ((z : ℚ) : ℝ)) - k = (((n : ℤ) - z - k : ℤ) : ℝ) := by push_cast; ring
    rw [this]
    split
    · next h => rw [h, sub_self, Int.cast_zero, sinc_zero]
    · next h => exact sinc_int _ (by omega)
  have hval : (delayed z out x).getD n 0 = ∑ k ∈ Finset.range x.length, (delayEntry z n k : ℂ) * x.getD k 0 := by
    rw [List.getD_eq_getElem _ _ hn]
    simp [delayed]
  rw [hval]
  by_cases h0 : 0 ≤ (n : ℤ) - z
  · rw [if_pos h0]
    have hk : ∀ k : Nat, ((n : ℤ) - z = k) ↔ k = ((n : ℤ) - z).toNat := by intro k; omega
    simp only [harg, hk]
    by_cases hl : ((n : ℤ) - z).toNat < x.length
    · rw [Finset.sum_eq_single ((n : ℤ) - z).toNat]
      · simp
      · intro k _ hne; simp [hne]
      · intro hh; exact absurd (Finset.mem_range.mpr hl) hh
    · rw [List.getD_eq_default _ _ (by omega)]
      refine Finset.sum_eq_zero fun k hk' => ?_
      rw [if_neg (by have := Finset.mem_range.mp hk'; omega)]
      simp
  · rw [if_neg h0]
    refine Finset.sum_eq_zero fun k _ => ?_
    rw [harg, if_neg (by omega)]
    simp

/-- C133: the number of samples after a delay of a whole number of samples. -/
theorem C133_delay_length (z : ℤ) (x : List ℂ) : (delayed z (-1) x).length = ((x.length : ℤ) + z).toNat := by
  simp only [delayed, List.length_map, List.length_range, delayRows]
  rw [if_pos (by decide)]
  congr 2
  have h1 : ⌈|((z : ℤ) : ℚ)|⌉ = |z| := by rw [← Int.cast_abs, Int.ceil_intCast]
  have h2 : SignType.sign ((z : ℤ) : ℚ) = SignType.sign z := by
    rcases lt_trichotomy z 0 with h | h | h
    · rw [sign_neg h, sign_neg (by exact_mod_cast h)]
    · simp [h]
    · rw [sign_pos h, sign_pos (by exact_mod_cast h)]
  rw [h1, h2, mul_comm, sign_mul_abs]

/-- C133: numbers of output samples that are asked for, zero among them, are kept to, whatever the delay. -/
theorem C133_delay_wanted (d : ℚ) (n : Nat) (x : List ℂ) : (delayed d n x).length = n := by
  simp only [delayed, List.length_map, List.length_range, delayRows]
  rw [if_neg (by omega : ¬((n : ℤ) < 0))]
  simp

example : delayed (1 : ℤ) (0 : Nat) [5, 7] = [] := List.length_eq_zero_iff.mp (C133_delay_wanted _ 0 _)

example : (delayed (1 : ℤ) (-1) [5, 7]).length = 3 := by rw [C133_delay_length]; rfl

end Verif.Resample
