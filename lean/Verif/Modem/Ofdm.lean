import Verif.Modem.Frame
import Verif.Dft

/-!
# OFDM, OTFS and OCDM

The transformations of `hermespy/modem/waveforms/orthogonal/{ofdm,otfs,ocdm}.py`; complex numbers are
exact, `fft` and `ifft` are their definition.
-/

namespace Verif.Modem

open Complex Finset Verif.Dft

/-- A row as a function of its index. -/
def toFn (row : List ℂ) : Nat → ℂ := fun i => row[i]?.getD 0

/-- The row of the first `n` values of a function. -/
def ofFn (n : Nat) (f : Nat → ℂ) : List ℂ := (List.range n).map f

theorem ofFn_length (n : Nat) (f : Nat → ℂ) : (ofFn n f).length = n := by simp [ofFn]

theorem toFn_ofFn (n : Nat) (f : Nat → ℂ) (i : Nat) (h : i < n) : toFn (ofFn n f) i = f i := by
  simp [toFn, ofFn, h]

theorem ofFn_toFn (row : List ℂ) : ofFn row.length (toFn row) = row := by
  apply List.ext_getElem (by simp [ofFn])
  intro i h1 h2
  simp [ofFn, toFn, h2]

theorem ofFn_congr (n : Nat) (f g : Nat → ℂ) (h : ∀ i < n, f i = g i) : ofFn n f = ofFn n g := by
  apply List.map_congr_left
  intro i hi
  exact h i (List.mem_range.1 hi)

/-! ### OFDM -/

/-- `padding_start_idx`. `waveforms/orthogonal/ofdm.py` 109-111, 150-152. -/
def padStart (N os : Nat) : Nat := os * N / 2 - N / 2

/-- Zero-padded, normalised symbols of a word. `waveforms/orthogonal/ofdm.py` 101-114. -/
noncomputable def padded (N os : Nat) (x : Nat → ℂ) (i : Nat) : ℂ :=
  if padStart N os ≤ i ∧ i < N + padStart N os then
    x (i - padStart N os) / ((Real.sqrt N : ℝ) : ℂ)
  else 0

/-- Where `np.roll(..., 1)` on the part from `dc_index = n // 2` on takes entry `i` from.
`waveforms/orthogonal/ofdm.py` 116-120. -/
def rollSource (dc : Bool) (n i : Nat) : Nat :=
  if dc = true ∧ n / 2 ≤ i then (if i = n / 2 then n - 1 else i - 1) else i

/-- Where `np.roll(..., -1)` on the part from `dc_index = n // 2` on takes entry `i` from.
`waveforms/orthogonal/ofdm.py` 144-147. -/
def unrollSource (dc : Bool) (n i : Nat) : Nat :=
  if dc = true ∧ n / 2 ≤ i then (if i = n - 1 then n / 2 else i + 1) else i

/-- `OFDMWaveform._forward_transformation` of one word; `ifftshift` takes entry `i` from
`(i + n // 2) % n`. `waveforms/orthogonal/ofdm.py` 97-130. -/
noncomputable def ofdmForwardRow (N os : Nat) (dc : Bool) (x : Nat → ℂ) (m : Nat) : ℂ :=
  ifft .forward (N * os)
    (fun i => padded N os x (rollSource dc (N * os) ((i + N * os / 2) % (N * os)))) m

/-- `OFDMWaveform._backward_transformation` of one word; `fftshift` takes entry `i` from
`(i - n // 2) % n`. `waveforms/orthogonal/ofdm.py` 132-161. -/
noncomputable def ofdmBackwardRow (N os : Nat) (dc : Bool) (y : Nat → ℂ) (j : Nat) : ℂ :=
  fft .backward (N * os) y
    ((unrollSource dc (N * os) (padStart N os + j) + (N * os - N * os / 2)) % (N * os)) *
    (1 / ((Real.sqrt N : ℝ) : ℂ) / (os : ℂ))

/-- `_forward_transformation` of a grid. `waveforms/orthogonal/ofdm.py` 97-130. -/
noncomputable def ofdmForward (N os : Nat) (dc : Bool) (grid : List (List ℂ)) : List (List ℂ) :=
  grid.map fun row => ofFn (N * os) (ofdmForwardRow N os dc (toFn row))

/-- `_backward_transformation` of a grid. `waveforms/orthogonal/ofdm.py` 132-161. -/
noncomputable def ofdmBackward (N os : Nat) (dc : Bool) (grid : List (List ℂ)) : List (List ℂ) :=
  grid.map fun row => ofFn N (ofdmBackwardRow N os dc (toFn row))

theorem fft_congr (norm : Norm) (n : Nat) (x y : Nat → ℂ) (m : Nat)
    (h : ∀ j < n, x j = y j) : fft norm n x m = fft norm n y m := by
  unfold fft
  congr 1
  refine Finset.sum_congr rfl fun j hj => ?_
  rw [h j (Finset.mem_range.mp hj)]

/-- `fft(norm="backward")` after `ifft(norm="forward")` multiplies by the length. -/
theorem fft_ifft_unnormalised (n : Nat) (x : Nat → ℂ) (a : Nat) (ha : a < n) :
    fft .backward n (ifft .forward n x) a = n * x a := by
  have hn0 : (n : ℂ) ≠ 0 := by
    have : n ≠ 0 := by omega
    exact_mod_cast this
  have h := fft_ifft .forward n x a ha
  unfold fft at h ⊢
  simp only [Norm.fwd] at h ⊢
  rw [← h]
  field_simp

theorem mod_shift (n a : Nat) (ha : a < n) : (((a + (n - n / 2)) % n) + n / 2) % n = a := by
  rw [Nat.mod_add_mod, show a + (n - n / 2) + n / 2 = a + n by omega, Nat.add_mod_right,
    Nat.mod_eq_of_lt ha]

theorem roll_unroll (dc : Bool) (n i : Nat) (h : i < n) :
    rollSource dc n (unrollSource dc n i) = i := by
  unfold rollSource unrollSource
  cases dc
  · simp
  · simp only [true_and]
    split_ifs <;> omega

theorem unroll_lt (dc : Bool) (n i : Nat) (h : i < n) : unrollSource dc n i < n := by
  unfold unrollSource
  split_ifs <;> omega

theorem padStart_le (N os : Nat) (hos : 0 < os) (j : Nat) (hj : j < N) :
    padStart N os + j < N * os := by
  unfold padStart
  have : N ≤ N * os := Nat.le_mul_of_pos_right N hos
  rw [Nat.mul_comm os N]
  omega

theorem scale_one (N os : Nat) (hN : 0 < N) (hos : 0 < os) :
    ((N * os : Nat) : ℂ) * (1 / ((Real.sqrt N : ℝ) : ℂ)) * (1 / ((Real.sqrt N : ℝ) : ℂ) / (os : ℂ)) = 1 := by
  have hs : ((Real.sqrt N : ℝ) : ℂ) * ((Real.sqrt N : ℝ) : ℂ) = N := by
    rw [← Complex.ofReal_mul, Real.mul_self_sqrt (by positivity)]
    simp
  have hs0 : ((Real.sqrt N : ℝ) : ℂ) ≠ 0 := by
    rw [Complex.ofReal_ne_zero, Real.sqrt_ne_zero']
    exact_mod_cast hN
  have ho : (os : ℂ) ≠ 0 := by exact_mod_cast hos.ne'
  push_cast
  field_simp
  rw [pow_two, hs]

theorem ofdm_row (N os : Nat) (dc : Bool) (hN : 0 < N) (hos : 0 < os) (x : Nat → ℂ) (j : Nat)
    (hj : j < N) :
    ofdmBackwardRow N os dc (ofdmForwardRow N os dc x) j = x j := by
  have hn : 0 < N * os := Nat.mul_pos hN hos
  have hlt := padStart_le N os hos j hj
  unfold ofdmBackwardRow
  rw [show ofdmForwardRow N os dc x = ifft .forward (N * os)
    (fun i => padded N os x (rollSource dc (N * os) ((i + N * os / 2) % (N * os)))) from rfl,
    fft_ifft_unnormalised _ _ _ (Nat.mod_lt _ hn), mod_shift _ _ (unroll_lt dc _ _ hlt),
    roll_unroll dc _ _ hlt, padded, if_pos (by omega), Nat.add_sub_cancel_left]
  have := scale_one N os hN hos
  calc _ = x j * (((N * os : Nat) : ℂ) * (1 / ((Real.sqrt N : ℝ) : ℂ)) *
        (1 / ((Real.sqrt N : ℝ) : ℂ) / (os : ℂ))) := by ring
    _ = x j := by rw [this, mul_one]

/-- C56, OFDM: the transformations lose nothing, for every number of subcarriers, every oversampling
factor, with and without suppression of the direct current. -/
theorem C56_ofdm (N os : Nat) (dc : Bool) (hN : 0 < N) (hos : 0 < os) :
    Lossless N os (ofdmForward N os dc) (ofdmBackward N os dc) := by
  intro grid hrow
  refine ⟨by simp [ofdmForward], ?_, ?_⟩
  · intro row hr
    obtain ⟨r, _, rfl⟩ := List.mem_map.1 hr
    exact ofFn_length _ _
  · unfold ofdmBackward ofdmForward
    rw [List.map_map]
    conv_rhs => rw [← List.map_id grid]
    apply List.map_congr_left
    intro row hr
    simp only [Function.comp_apply, id]
    have : ofFn N (ofdmBackwardRow N os dc (toFn (ofFn (N * os) (ofdmForwardRow N os dc (toFn row))))) =
        ofFn N (toFn row) := by
      apply ofFn_congr
      intro j hj
      rw [← ofdm_row N os dc hN hos (toFn row) j hj]
      unfold ofdmBackwardRow
      congr 1
      apply fft_congr
      intro i hi
      exact toFn_ofFn _ _ _ hi
    rw [this, ← hrow row hr, ofFn_toFn]

/-- C56, direct current: with suppression and an oversampling factor of at least two, the samples of
every word have mean zero (for more than one subcarrier). -/
theorem C56_dc (N os : Nat) (hN : 2 ≤ N) (hos : 2 ≤ os) (x : Nat → ℂ) :
    ∑ k ∈ range (N * os), ofdmForwardRow N os true x k = 0 := by
  have hn : 0 < N * os := Nat.mul_pos (by omega) (by omega)
  have h := fft_ifft_unnormalised (N * os)
    (fun i => padded N os x (rollSource true (N * os) ((i + N * os / 2) % (N * os)))) 0 hn
  have e : fft .backward (N * os) (ofdmForwardRow N os true x) 0 =
      ∑ k ∈ range (N * os), ofdmForwardRow N os true x k := by
    unfold fft
    simp [Norm.fwd]
  rw [← e, show ofdmForwardRow N os true x = ifft .forward (N * os)
    (fun i => padded N os x (rollSource true (N * os) ((i + N * os / 2) % (N * os)))) from rfl, h]
  have h2 : N * 2 ≤ N * os := Nat.mul_le_mul_left N hos
  rw [Nat.zero_add, Nat.mod_eq_of_lt (by omega)]
  have : rollSource true (N * os) (N * os / 2) = N * os - 1 := by simp [rollSource]
  rw [this, padded, if_neg, mul_zero]
  unfold padStart
  rw [Nat.mul_comm os N]
  omega

/-! ### OTFS -/

/-- First step of `OTFSWaveform._forward_transformation` on a grid of `W` words: `ifft` along the
subcarriers, then `fft` along the words. `waveforms/orthogonal/otfs.py` 28-29. -/
noncomputable def isfft (W N : Nat) (x : Nat → Nat → ℂ) (w m : Nat) : ℂ :=
  fft .ortho W (fun v => ifft .ortho N (x v) m) w

/-- Second step of `OTFSWaveform._backward_transformation`: `fft` along the subcarriers, then `ifft`
along the words. `waveforms/orthogonal/otfs.py` 47-48. -/
noncomputable def sfft (W N : Nat) (x : Nat → Nat → ℂ) (w m : Nat) : ℂ :=
  ifft .ortho W (fun v => fft .ortho N (x v) m) w

/-- A grid as a function of word and subcarrier. -/
def toFn2 (grid : List (List ℂ)) : Nat → Nat → ℂ := fun w m => toFn (grid[w]?.getD []) m

/-- The grid of the first `W` words of `N` values of a function. -/
def ofFn2 (W N : Nat) (f : Nat → Nat → ℂ) : List (List ℂ) := (List.range W).map fun w => ofFn N (f w)

/-- `OTFSWaveform._forward_transformation`. `waveforms/orthogonal/otfs.py` 24-36. -/
noncomputable def otfsForward (N os : Nat) (dc : Bool) (grid : List (List ℂ)) : List (List ℂ) :=
  ofdmForward N os dc (ofFn2 grid.length N (isfft grid.length N (toFn2 grid)))

/-- `OTFSWaveform._backward_transformation`; the last normalisation divides by the square root of the
empty product for a two-dimensional grid. `waveforms/orthogonal/otfs.py` 38-54. -/
noncomputable def otfsBackward (N os : Nat) (dc : Bool) (grid : List (List ℂ)) : List (List ℂ) :=
  let g := ofdmBackward N os dc grid
  ofFn2 g.length N (sfft g.length N (toFn2 g))

theorem toFn2_ofFn2 (W N : Nat) (f : Nat → Nat → ℂ) (w m : Nat) (hw : w < W) (hm : m < N) :
    toFn2 (ofFn2 W N f) w m = f w m := by
  unfold toFn2 ofFn2
  rw [List.getElem?_map, List.getElem?_range hw]
  exact toFn_ofFn _ _ _ hm

theorem ofFn2_toFn2 (N : Nat) (grid : List (List ℂ)) (h : ∀ row ∈ grid, row.length = N) :
    ofFn2 grid.length N (toFn2 grid) = grid := by
  apply List.ext_getElem (by simp [ofFn2])
  intro i h1 h2
  simp only [ofFn2, List.getElem_map, List.getElem_range]
  have e : toFn2 grid i = toFn grid[i] := by
    funext m
    simp [toFn2, List.getElem?_eq_getElem h2]
  rw [e, ← h grid[i] (List.getElem_mem h2)]
  exact ofFn_toFn _

/-- Transforming along subcarriers and along words commutes. -/
theorem fft_comm (n1 n2 : Norm) (W N : Nat) (x : Nat → Nat → ℂ) (w m : Nat) :
    fft n1 N (fun k => fft n2 W (fun v => x v k) w) m =
      fft n2 W (fun v => fft n1 N (x v) m) w := by
  unfold fft
  simp only [Finset.mul_sum, Finset.sum_mul]
  rw [Finset.sum_comm]
  refine Finset.sum_congr rfl fun v _ => Finset.sum_congr rfl fun k _ => ?_
  ring

theorem sfft_isfft (W N : Nat) (x : Nat → Nat → ℂ) (w m : Nat) (hw : w < W) (hm : m < N) :
    sfft W N (isfft W N x) w m = x w m := by
  unfold sfft
  have h : ∀ v, fft .ortho N (isfft W N x v) m = fft .ortho W (fun u => x u m) v := by
    intro v
    rw [show isfft W N x v = fun k => fft .ortho W (fun u => ifft .ortho N (x u) k) v from rfl]
    rw [fft_comm .ortho .ortho W N (fun u => ifft .ortho N (x u)) v m]
    congr 1
    funext u
    exact fft_ifft .ortho N (x u) m hm
  simp only [h]
  exact ifft_fft .ortho W (fun u => x u m) w hw

/-- C56, OTFS: the transformations lose nothing. -/
theorem C56_otfs (N os : Nat) (dc : Bool) (hN : 0 < N) (hos : 0 < os) :
    Lossless N os (otfsForward N os dc) (otfsBackward N os dc) := by
  intro grid hrow
  have hrow2 : ∀ row ∈ ofFn2 grid.length N (isfft grid.length N (toFn2 grid)), row.length = N := by
    intro row hr
    obtain ⟨_, _, rfl⟩ := List.mem_map.1 hr
    exact ofFn_length _ _
  obtain ⟨h1, h2, h3⟩ := C56_ofdm N os dc hN hos _ hrow2
  have hl : (ofFn2 grid.length N (isfft grid.length N (toFn2 grid))).length = grid.length := by
    simp [ofFn2]
  refine ⟨h1.trans hl, h2, ?_⟩
  unfold otfsBackward otfsForward
  rw [h3]
  simp only [hl]
  conv_rhs => rw [← ofFn2_toFn2 N grid hrow]
  unfold ofFn2
  apply List.map_congr_left
  intro w hw
  have hw' := List.mem_range.1 hw
  apply ofFn_congr
  intro m hm
  rw [← sfft_isfft grid.length N (toFn2 grid) w m hw' hm]
  unfold sfft
  apply ifft_congr
  intro v hv
  apply fft_congr
  intro k hk
  exact toFn2_ofFn2 _ _ _ _ _ hv hk

/-! ### OCDM -/

/-- Phase of entry `(m, n)` of the Fresnel transform, in units of `π`.
`waveforms/orthogonal/ocdm.py` 37-45. -/
noncomputable def fresnelPhase (N os m n : Nat) : ℝ :=
  ((m : ℝ) + (if N % 2 = 0 then 0 else 0.5) - n / os) ^ 2 / N - 0.25

/-- `OCDMWaveform.__DFnT`. `waveforms/orthogonal/ocdm.py` 24-47. -/
noncomputable def fresnel (N os m n : Nat) : ℂ :=
  1 / ((Real.sqrt N : ℝ) : ℂ) * exp (I * (Real.pi * fresnelPhase N os m n : ℝ))

/-- `OCDMWaveform._forward_transformation` of one word. `waveforms/orthogonal/ocdm.py` 49-53. -/
noncomputable def ocdmForwardRow (N os : Nat) (x : Nat → ℂ) (n : Nat) : ℂ :=
  ∑ m ∈ range N, x m * fresnel N os m n

/-- `OCDMWaveform._backward_transformation` of one word. `waveforms/orthogonal/ocdm.py` 55-65. -/
noncomputable def ocdmBackwardRow (N os : Nat) (y : Nat → ℂ) (m : Nat) : ℂ :=
  (∑ n ∈ range (N * os), y n * (starRingEnd ℂ) (fresnel N os m n)) / os

/-- `_forward_transformation` of a grid. -/
noncomputable def ocdmForward (N os : Nat) (grid : List (List ℂ)) : List (List ℂ) :=
  grid.map fun row => ofFn (N * os) (ocdmForwardRow N os (toFn row))

/-- `_backward_transformation` of a grid. -/
noncomputable def ocdmBackward (N os : Nat) (grid : List (List ℂ)) : List (List ℂ) :=
  grid.map fun row => ofFn N (ocdmBackwardRow N os (toFn row))

theorem fresnel_orthogonal (N os : Nat) (hN : 0 < N) (hos : 0 < os) (a b : Nat) (ha : a < N)
    (hb : b < N) :
    ∑ n ∈ range (N * os), fresnel N os a n * (starRingEnd ℂ) (fresnel N os b n) =
      if a = b then (os : ℂ) else 0 := by
  have hNc : (N : ℂ) ≠ 0 := by exact_mod_cast hN.ne'
  have hoc : (os : ℂ) ≠ 0 := by exact_mod_cast hos.ne'
  have hle : N ≤ N * os := Nat.le_mul_of_pos_right N hos
  have hs : (1 / ((Real.sqrt N : ℝ) : ℂ)) * (1 / ((Real.sqrt N : ℝ) : ℂ)) = 1 / N := by
    rw [div_mul_div_comm, one_mul, ← Complex.ofReal_mul, Real.mul_self_sqrt (by positivity)]
    simp
  set c : ℝ := if N % 2 = 0 then 0 else 0.5 with hc
  set K : ℂ := exp (Real.pi * I * (((a : ℂ) + c) ^ 2 - ((b : ℂ) + c) ^ 2) / N) with hK
  have hterm : ∀ n ∈ range (N * os), fresnel N os a n * (starRingEnd ℂ) (fresnel N os b n) =
      K / N * (exp (2 * Real.pi * I * n * b / ((N * os : Nat) : ℂ)) *
        exp (-(2 * Real.pi * I * n * a / ((N * os : Nat) : ℂ)))) := by
    intro n _
    have hconj : (starRingEnd ℂ) (fresnel N os b n) =
        1 / ((Real.sqrt N : ℝ) : ℂ) * exp (-(I * (Real.pi * fresnelPhase N os b n : ℝ))) := by
      unfold fresnel
      rw [map_mul, ← Complex.exp_conj, map_mul, Complex.conj_I, Complex.conj_ofReal, map_div₀, map_one,
        Complex.conj_ofReal, neg_mul]
    rw [hconj]
    unfold fresnel
    rw [show ∀ p q r s : ℂ, p * q * (r * s) = p * r * (q * s) from fun p q r s => by ring, hs,
      ← Complex.exp_add, ← Complex.exp_add, hK,
      (show ∀ p r : ℂ, p / (N : ℂ) * exp r = 1 / N * (p * exp r) from fun p r => by ring)
        (exp (Real.pi * I * (((a : ℂ) + c) ^ 2 - ((b : ℂ) + c) ^ 2) / N)), ← Complex.exp_add]
    congr 2
    unfold fresnelPhase
    rw [← hc]
    push_cast
    field_simp
    ring
  rw [Finset.sum_congr rfl hterm, ← Finset.mul_sum,
    exp_orthogonal (N * os) (by positivity) b a (by omega) (by omega)]
  by_cases h : a = b
  · subst h
    rw [if_pos rfl, if_pos rfl, hK, sub_self, mul_zero, zero_div, Complex.exp_zero]
    push_cast
    field_simp
  · rw [if_neg h, if_neg (fun e => h e.symm), mul_zero]

theorem ocdm_row (N os : Nat) (hN : 0 < N) (hos : 0 < os) (x : Nat → ℂ) (j : Nat) (hj : j < N) :
    ocdmBackwardRow N os (ocdmForwardRow N os x) j = x j := by
  have hoc : (os : ℂ) ≠ 0 := by exact_mod_cast hos.ne'
  unfold ocdmBackwardRow ocdmForwardRow
  have h1 : ∑ n ∈ range (N * os), (∑ m ∈ range N, x m * fresnel N os m n) *
      (starRingEnd ℂ) (fresnel N os j n) = ∑ m ∈ range N, if m = j then x m * os else 0 := by
    simp only [Finset.sum_mul]
    rw [Finset.sum_comm]
    refine Finset.sum_congr rfl fun m hm => ?_
    have : ∀ n ∈ range (N * os), x m * fresnel N os m n * (starRingEnd ℂ) (fresnel N os j n) =
        x m * (fresnel N os m n * (starRingEnd ℂ) (fresnel N os j n)) := by
      intro n _; ring
    rw [Finset.sum_congr rfl this, ← Finset.mul_sum,
      fresnel_orthogonal N os hN hos m j (Finset.mem_range.1 hm) hj]
    split <;> simp
  rw [h1, Finset.sum_ite_eq', if_pos (Finset.mem_range.2 hj)]
  field_simp

/-- C56, OCDM: the transformations lose nothing. -/
theorem C56_ocdm (N os : Nat) (hN : 0 < N) (hos : 0 < os) :
    Lossless N os (ocdmForward N os) (ocdmBackward N os) := by
  intro grid hrow
  refine ⟨by simp [ocdmForward], ?_, ?_⟩
  · intro row hr
    obtain ⟨r, _, rfl⟩ := List.mem_map.1 hr
    exact ofFn_length _ _
  · unfold ocdmBackward ocdmForward
    rw [List.map_map]
    conv_rhs => rw [← List.map_id grid]
    apply List.map_congr_left
    intro row hr
    simp only [Function.comp_apply, id]
    have : ofFn N (ocdmBackwardRow N os (toFn (ofFn (N * os) (ocdmForwardRow N os (toFn row))))) =
        ofFn N (toFn row) := by
      apply ofFn_congr
      intro j hj
      rw [← ocdm_row N os hN hos (toFn row) j hj]
      unfold ocdmBackwardRow
      congr 1
      refine Finset.sum_congr rfl fun n hn => ?_
      rw [toFn_ofFn _ _ _ (Finset.mem_range.1 hn)]
    rw [this, ← hrow row hr, ofFn_toFn]

/-- A frame of two repetitions of a word with a reference and three data symbols, a cyclic prefix of a
quarter word, followed by a guard interval. -/
def exampleFrame : Wave ℂ where
  numSubcarriers := 4
  structure_ := [.symbols 2 [⟨1, .cyclic, 1 / 4, [⟨.reference, 1⟩, ⟨.data, 3⟩]⟩] 0, .guard 1 2]
  pilotSection := some none
  defaultPilot := fun n => List.replicate n 1

/-- The chain theorem applies to the example frame, with each of the three transformations. -/
example (os : Nat) (hos : 0 < os) (data references : List ℂ) (hd : data.length = 6)
    (hr : references.length = 2) (forward backward : List (List ℂ) → List (List ℂ))
    (ht : (forward = ofdmForward 4 os true ∧ backward = ofdmBackward 4 os true) ∨
      (forward = otfsForward 4 os true ∧ backward = otfsBackward 4 os true) ∨
      (forward = ocdmForward 4 os ∧ backward = ocdmBackward 4 os)) :
    ∃ grid out, exampleFrame.place data references = .ok grid ∧
      exampleFrame.modulate forward 1 os grid = .ok out ∧
      ∀ rx, Realises out rx →
        ∃ grid', exampleFrame.demodulate backward (fun g _ => g) 1 os rx = .ok grid' ∧
          exampleFrame.pick grid' = .ok data := by
  apply C56_chain exampleFrame forward backward _ 1 os
  · rcases ht with ⟨rfl, rfl⟩ | ⟨rfl, rfl⟩ | ⟨rfl, rfl⟩
    · exact C56_ofdm 4 os true (by omega) hos
    · exact C56_otfs 4 os true (by omega) hos
    · exact C56_ocdm 4 os (by omega) hos
  · constructor
    · intro s hs
      simp only [exampleFrame, List.mem_cons, List.not_mem_nil, or_false] at hs
      rcases hs with rfl | rfl <;> decide
    · intro e he
      simp [exampleFrame] at he
  · intro s hs
    simp only [exampleFrame, List.mem_cons, List.not_mem_nil, or_false] at hs
    rcases hs with rfl | rfl <;> rfl
  · intro reps pattern off hs r hr _
    simp only [exampleFrame, List.mem_cons, List.not_mem_nil, or_false, reduceCtorEq,
      Section.symbols.injEq] at hs
    obtain ⟨_, rfl, _⟩ := hs
    simp only [List.mem_singleton] at hr
    subst hr
    apply Nat.floor_le_of_le
    have : (0 : ℚ) ≤ ((exampleFrame.numSubcarriers * os : Nat) : ℚ) := Nat.cast_nonneg _
    show ((exampleFrame.numSubcarriers * os : Nat) : ℚ) * (1 / 4) ≤ _
    linarith
  · intro e he
    simp only [exampleFrame, Option.some.injEq] at he
    subst he
    simp [exampleFrame, pilotSequence]
  · exact hd
  · exact hr

end Verif.Modem
