import Verif.Np
import Verif.Signal.Model
import Mathlib.Analysis.CStarAlgebra.Matrix
import Mathlib.Data.Complex.Basic
import Mathlib.Data.Set.Card
import Mathlib.Algebra.Order.Floor.Ring
import Mathlib.Tactic.FieldSimp
import Mathlib.Tactic.Linarith
import Mathlib.Tactic.Positivity

/-!
# Analog-digital conversion

`hermespy/simulation/rf/blocks/ad.py`: quantisation, gain control, conversion frame by frame, and the
digital-analog converter. Samples are exact complex numbers.
-/

namespace Verif.Rf.Ad

/-- The setter of `num_quantization_bits`; zero means no quantisation. Values that are not integers are not
modelled. `hermespy/simulation/rf/blocks/ad.py` 81-91. -/
def setBits : Option Int → Except PyErr (Option Nat)
  | none => .ok none
  | some n => if n < 0 then .error .value else .ok (if 0 < n then some n.toNat else none)

/-- `np.clip`. -/
noncomputable def clip (lo hi x : ℝ) : ℝ := min (max x lo) hi

/-- The quantisation step of a mid-riser quantizer. `hermespy/simulation/rf/blocks/ad.py` 469-473. -/
noncomputable def riserStep (b : Nat) : ℝ := 2 * 1 / (2 : ℝ) ^ b

/-- Mid-riser quantisation of a real component. `hermespy/simulation/rf/blocks/ad.py` 469-483. -/
noncomputable def midRiser (b : Nat) (x : ℝ) : ℝ :=
  clip (-1 + riserStep b / 2) (1 - riserStep b / 2) (riserStep b * (⌊x / riserStep b⌋ + 1 / 2))

/-- The quantisation step of a mid-tread quantizer. `hermespy/simulation/rf/blocks/ad.py` 485-488. -/
noncomputable def treadStep (b : Nat) : ℝ := 2 * 1 / ((2 : ℝ) ^ b + 1)

/-- Mid-tread quantisation of a real component. `hermespy/simulation/rf/blocks/ad.py` 485-499. -/
noncomputable def midTread (b : Nat) (x : ℝ) : ℝ :=
  treadStep b * ⌊clip (-1) (1 - treadStep b) x / treadStep b + 1 / 2⌋

/-- `QuantizerType`. `hermespy/simulation/rf/blocks/ad.py` 369-373. -/
inductive QuantizerType where
  | midRiser
  | midTread

/-- Quantisation of a real component by either type. -/
noncomputable def component : QuantizerType → Nat → ℝ → ℝ
  | .midRiser => midRiser
  | .midTread => midTread

/-- The step of either type. -/
noncomputable def stepOf : QuantizerType → Nat → ℝ
  | .midRiser => riserStep
  | .midTread => treadStep

/-- `ADC._quantize`, sample by sample. `hermespy/simulation/rf/blocks/ad.py` 450-500. -/
noncomputable def quantize (t : QuantizerType) : Option Nat → ℂ → ℂ
  | none, z => z
  | some b, z => ⟨component t b z.re, component t b z.im⟩

/-- Gain control models. `hermespy/simulation/rf/blocks/ad.py` 111-116, 201-248, 264-351. -/
inductive Gain where
  | constant (gain : ℝ)
  | maxAmplitude (backoff : ℝ)
  | rmsAmplitude (backoff : ℝ)

/-- A frame: `S` streams of `N` samples. -/
abbrev Frame (S N : Nat) := Matrix (Fin S) (Fin N) ℂ

open scoped Matrix.Norms.L2Operator in
/-- `rms_value`: the two-norm of the array divided by the root of its size. The two-norm of a
two-dimensional array is its largest singular value. `hermespy/tools/math.py` 102-106. -/
noncomputable def rmsValue {S N : Nat} (x : Matrix (Fin S) (Fin N) ℝ) : ℝ :=
  ‖x‖ / Real.sqrt (S * N)

/-- The greatest absolute value of a component; `max` of an empty array raises.
`hermespy/simulation/rf/blocks/ad.py` 334-341. -/
noncomputable def peakAmplitude {S N : Nat} (x : Frame S N) : Except PyErr ℝ :=
  if h : 0 < S ∧ 0 < N then
    .ok (max ((Finset.univ : Finset (Fin S × Fin N)).sup' ⟨(⟨0, h.1⟩, ⟨0, h.2⟩), Finset.mem_univ _⟩
        fun p => |(x p.1 p.2).re|)
      (max ((Finset.univ : Finset (Fin S × Fin N)).sup' ⟨(⟨0, h.1⟩, ⟨0, h.2⟩), Finset.mem_univ _⟩
        fun p => |(x p.1 p.2).im|) 0))
  else .error .value

/-- The reciprocal of an amplitude scaled by the backoff. `hermespy/simulation/rf/blocks/ad.py` 351. -/
noncomputable def gainOf (amplitude backoff : ℝ) : ℝ :=
  if 0 < amplitude then 1 / (amplitude * backoff) else 1

/-- `estimate_gain`. `hermespy/simulation/rf/blocks/ad.py` 247-248, 333-351. -/
noncomputable def Gain.estimate {S N : Nat} (x : Frame S N) : Gain → Except PyErr ℝ
  | .constant g => .ok g
  | .maxAmplitude backoff =>
    match peakAmplitude x with
    | .error e => .error e
    | .ok a => .ok (gainOf a backoff)
  | .rmsAmplitude backoff =>
    .ok (gainOf (max (rmsValue (x.map Complex.re)) (max (rmsValue (x.map Complex.im)) 0)) backoff)

/-- `ADC.__convert_frame`. `hermespy/simulation/rf/blocks/ad.py` 162-198, 502-525. -/
noncomputable def convertFrame {S N : Nat} (t : QuantizerType) (bits : Option Nat) (g : Gain)
    (rescale : Bool) (x : Frame S N) : Except PyErr (Frame S N) :=
  match g.estimate x with
  | .error e => .error e
  | .ok gain => .ok (x.map fun z =>
      let q := quantize t bits (z * gain)
      if rescale then q / gain else q)

/-- `DAC._propagate`. `hermespy/simulation/rf/blocks/ad.py` 664-665. -/
def dacPropagate {α : Type} (_bits : Option Nat) (input : α) : α := input

/-- Number of samples per conversion frame. `hermespy/simulation/rf/blocks/ad.py` 536-540. -/
def frameSamples (duration samplingRate : ℚ) (numSamples : Nat) : Nat :=
  if 0 < duration then (Signal.pyRound (duration * samplingRate)).toNat else numSamples

/-- Assignment of the converted frame to a slice of `n` samples: numpy repeats a single sample and refuses any
other length. `hermespy/simulation/rf/blocks/ad.py` 558-560. -/
def assignFrame {γ : Type} (n : Nat) (frame : List γ) : Except PyErr (List γ) :=
  if frame.length = n then .ok frame
  else match frame with
    | [x] => .ok (List.replicate n x)
    | _ => .error .value

/-- The loop over the frames `f, f + 1, …`. `hermespy/simulation/rf/blocks/ad.py` 554-560. -/
def convertLoop {γ : Type} (conv : List γ → Except PyErr (List γ)) (n : Nat) (input : List γ) :
    Nat → Nat → Except PyErr (List γ)
  | 0, _ => .ok []
  | count + 1, f =>
    match conv ((input.drop (f * n)).take n) with
    | .error e => .error e
    | .ok frame =>
      match assignFrame n frame with
      | .error e => .error e
      | .ok xs =>
        match convertLoop conv n input count (f + 1) with
        | .error e => .error e
        | .ok rest => .ok (xs ++ rest)

/-- `ADC._propagate` for a converter `conv` of frames; a sample is the column of all streams.
`hermespy/simulation/rf/blocks/ad.py` 528-561. -/
def adcPropagate {γ : Type} (conv : List γ → Except PyErr (List γ)) (duration samplingRate : ℚ)
    (input : List γ) : Except PyErr (List γ) :=
  let n := frameSamples duration samplingRate input.length
  let numFrames := if 0 < n then (input.length + n - 1) / n else 0
  convertLoop conv n input numFrames 0

/-- The frame converter on lists of columns. -/
noncomputable def convertColumns {S : Nat} (t : QuantizerType) (bits : Option Nat) (g : Gain) (rescale : Bool)
    (cols : List (Fin S → ℂ)) : Except PyErr (List (Fin S → ℂ)) :=
  match convertFrame t bits g rescale (Matrix.of fun s (k : Fin cols.length) => cols[k] s) with
  | .error e => .error e
  | .ok x => .ok (List.ofFn fun k => fun s => x s k)

/-! ## Quantisation -/

theorem riserStep_pos (b : Nat) : 0 < riserStep b := by unfold riserStep; positivity

theorem treadStep_pos (b : Nat) : 0 < treadStep b := by unfold treadStep; positivity

theorem clip_mono (lo hi : ℝ) : Monotone (clip lo hi) := fun _ _ h =>
  min_le_min_right _ (max_le_max_right _ h)

theorem clip_mem {lo hi : ℝ} (h : lo ≤ hi) (x : ℝ) : lo ≤ clip lo hi x ∧ clip lo hi x ≤ hi :=
  ⟨le_min (le_max_right _ _) h, min_le_right _ _⟩

theorem clip_of_mem {lo hi x : ℝ} (h1 : lo ≤ x) (h2 : x ≤ hi) : clip lo hi x = x := by
  unfold clip
  rw [max_eq_left h1, min_eq_left h2]

/-- The levels of a mid-riser quantizer. -/
theorem midRiser_level (b : Nat) (hb : 1 ≤ b) (x : ℝ) :
    ∃ k : Nat, k < 2 ^ b ∧ midRiser b x = -1 + riserStep b * (k + 1 / 2) ∧
      (x < -1 + riserStep b → k = 0) ∧ (1 - riserStep b ≤ x → k = 2 ^ b - 1) ∧
      (-1 ≤ x → x < 1 → -1 + riserStep b * k ≤ x ∧ x < -1 + riserStep b * (k + 1)) := by
  have hs := riserStep_pos b
  obtain ⟨c, rfl⟩ : ∃ c, b = c + 1 := ⟨b - 1, by omega⟩
  have hL : riserStep (c + 1) * 2 ^ c = 1 := by unfold riserStep; rw [pow_succ]; field_simp
  set s := riserStep (c + 1) with hsdef
  have hx1 := Int.floor_le (x / s)
  have hx2 := Int.lt_floor_add_one (x / s)
  rw [le_div_iff₀ hs] at hx1
  rw [div_lt_iff₀ hs] at hx2
  have hpow : (1 : ℝ) ≤ 2 ^ c := one_le_pow₀ (by norm_num)
  have hpn : 1 ≤ 2 ^ c := Nat.one_le_two_pow
  by_cases h1 : ⌊x / s⌋ < -(2 ^ c : ℤ)
  · refine ⟨0, by positivity, ?_, fun _ => rfl, ?_, ?_⟩
    · have h1' : ((⌊x / s⌋ : ℤ) : ℝ) + 1 ≤ -(2 ^ c : ℝ) := by exact_mod_cast h1
      unfold midRiser clip
      rw [← hsdef, max_eq_right, min_eq_left] <;> push_cast <;> nlinarith
    · intro h
      have h1' : ((⌊x / s⌋ : ℤ) : ℝ) + 1 ≤ -(2 ^ c : ℝ) := by exact_mod_cast h1
      nlinarith
    · intro h
      have h1' : ((⌊x / s⌋ : ℤ) : ℝ) + 1 ≤ -(2 ^ c : ℝ) := by exact_mod_cast h1
      nlinarith
  · push Not at h1
    by_cases h2 : (2 ^ c : ℤ) ≤ ⌊x / s⌋
    · have h2' : (2 ^ c : ℝ) ≤ ((⌊x / s⌋ : ℤ) : ℝ) := by exact_mod_cast h2
      have hk : ((2 ^ (c + 1) - 1 : ℕ) : ℝ) = 2 * 2 ^ c - 1 := by
        rw [Nat.cast_sub Nat.one_le_two_pow]; push_cast; ring
      refine ⟨2 ^ (c + 1) - 1, Nat.sub_lt (by positivity) (by omega), ?_, ?_, fun _ => rfl, ?_⟩
      · unfold midRiser clip
        rw [← hsdef, hk, min_eq_right]
        · nlinarith
        · exact le_max_of_le_left (by nlinarith)
      · intro h
        nlinarith
      · intro h h'
        nlinarith
    · push Not at h2
      have h1' : -(2 ^ c : ℝ) ≤ ((⌊x / s⌋ : ℤ) : ℝ) := by exact_mod_cast h1
      have h2' : ((⌊x / s⌋ : ℤ) : ℝ) + 1 ≤ (2 ^ c : ℝ) := by exact_mod_cast h2
      have hk : (((⌊x / s⌋ + 2 ^ c).toNat : ℕ) : ℝ) = ((⌊x / s⌋ : ℤ) : ℝ) + 2 ^ c := by
        have := Int.toNat_of_nonneg (a := ⌊x / s⌋ + 2 ^ c) (by omega)
        calc (((⌊x / s⌋ + 2 ^ c).toNat : ℕ) : ℝ) = (((⌊x / s⌋ + 2 ^ c).toNat : ℤ) : ℝ) := by push_cast; rfl
          _ = ((⌊x / s⌋ + 2 ^ c : ℤ) : ℝ) := by rw [this]
          _ = _ := by push_cast; ring
      refine ⟨(⌊x / s⌋ + 2 ^ c).toNat, ?_, ?_, ?_, ?_, ?_⟩
      · have : (2 : ℤ) ^ (c + 1) = 2 * 2 ^ c := by ring
        zify
        rw [Int.toNat_of_nonneg (by omega)]
        omega
      · rw [hk]
        unfold midRiser
        rw [← hsdef, clip_of_mem] <;> nlinarith
      · intro h
        have : ⌊x / s⌋ < -(2 ^ c : ℤ) + 1 := by
          rw [Int.floor_lt]
          push_cast
          rw [div_lt_iff₀ hs]
          nlinarith
        omega
      · intro h
        have : (2 ^ c : ℤ) - 1 ≤ ⌊x / s⌋ := by
          rw [Int.le_floor]
          push_cast
          rw [le_div_iff₀ hs]
          nlinarith
        have h3 : (2 : ℤ) ^ (c + 1) = 2 * 2 ^ c := by ring
        have h4 : ((2 ^ (c + 1) - 1 : ℕ) : ℤ) = 2 ^ (c + 1) - 1 := by
          rw [Nat.cast_sub Nat.one_le_two_pow]; push_cast; ring
        zify
        rw [Int.toNat_of_nonneg (by omega), h4]
        omega
      · intro _ _
        rw [hk]
        constructor <;> nlinarith

/-- The levels of a mid-tread quantizer. -/
theorem midTread_level (b : Nat) (hb : 1 ≤ b) (x : ℝ) :
    ∃ k : Int, -(2 ^ (b - 1) : ℤ) ≤ k ∧ k ≤ 2 ^ (b - 1) ∧ midTread b x = treadStep b * k ∧
      (-1 ≤ x → x ≤ 1 → treadStep b * k - treadStep b / 2 ≤ x ∧ x ≤ treadStep b * k + treadStep b / 2) ∧
      (1 - treadStep b ≤ x → k = 2 ^ (b - 1)) ∧ (x < -1 + treadStep b → k = -(2 ^ (b - 1))) ∧
      (∀ j : Int, x = treadStep b * j → -(2 ^ (b - 1) : ℤ) ≤ j → j ≤ 2 ^ (b - 1) → k = j) := by
  have hs := treadStep_pos b
  obtain ⟨c, rfl⟩ : ∃ c, b = c + 1 := ⟨b - 1, by omega⟩
  have hL : treadStep (c + 1) * (2 ^ c + 1 / 2) = 1 := by
    unfold treadStep
    rw [pow_succ]
    field_simp
  simp only [Nat.add_sub_cancel]
  set s := treadStep (c + 1) with hsdef
  have hpow : (1 : ℝ) ≤ 2 ^ c := one_le_pow₀ (by norm_num)
  have hlh : (-1 : ℝ) ≤ 1 - s := by nlinarith
  set y := clip (-1) (1 - s) x with hy
  obtain ⟨hy1, hy2⟩ := clip_mem hlh x
  rw [← hy] at hy1 hy2
  have e1 := Int.floor_le (y / s + 1 / 2)
  have e2 := Int.lt_floor_add_one (y / s + 1 / 2)
  have hys : y / s * s = y := div_mul_cancel₀ _ hs.ne'
  have f1 : s * ((⌊y / s + 1 / 2⌋ : ℤ) : ℝ) - s / 2 ≤ y := by nlinarith
  have f2 : y < s * ((⌊y / s + 1 / 2⌋ : ℤ) : ℝ) + s / 2 := by nlinarith
  have top : 1 - s ≤ x → ⌊y / s + 1 / 2⌋ = 2 ^ c := by
    intro h
    have : y = 1 - s := by
      rw [hy]
      unfold clip
      exact min_eq_right (le_max_of_le_left h)
    rw [Int.floor_eq_iff]
    push_cast
    have h2 : y / s = 2 ^ c - 1 / 2 := by rw [div_eq_iff hs.ne', this]; nlinarith
    rw [h2]
    constructor <;> linarith
  refine ⟨⌊y / s + 1 / 2⌋, ?_, ?_, rfl, ?_, top, ?_, ?_⟩
  · rw [Int.le_floor]
    push_cast
    have : -(2 ^ c + 1 / 2 : ℝ) ≤ y / s := by rw [le_div_iff₀ hs]; nlinarith
    linarith
  · have : ⌊y / s + 1 / 2⌋ < 2 ^ c + 1 := by
      rw [Int.floor_lt]
      push_cast
      have : y / s ≤ 2 ^ c - 1 / 2 := by rw [div_le_iff₀ hs]; nlinarith
      linarith
    omega
  · intro h1 h2
    by_cases h3 : x ≤ 1 - s
    · have : y = x := by rw [hy]; exact clip_of_mem h1 h3
      constructor <;> linarith
    · push Not at h3
      rw [top h3.le]
      push_cast
      constructor <;> nlinarith
  · intro h
    have h1 : y < -1 + s := by
      rw [hy]
      unfold clip
      apply min_lt_of_left_lt
      apply max_lt h
      linarith
    have lower : -(2 ^ c : ℤ) ≤ ⌊y / s + 1 / 2⌋ := by
      rw [Int.le_floor]
      push_cast
      have : -(2 ^ c + 1 / 2 : ℝ) ≤ y / s := by rw [le_div_iff₀ hs]; nlinarith
      linarith
    have upper : ⌊y / s + 1 / 2⌋ < -(2 ^ c : ℤ) + 1 := by
      rw [Int.floor_lt]
      push_cast
      have : y / s < -(2 ^ c + 1 / 2) + 1 := by rw [div_lt_iff₀ hs]; nlinarith
      linarith
    omega
  · intro j hj j1 j2
    by_cases h3 : j = 2 ^ c
    · rw [h3]
      apply top
      rw [hj, h3]
      push_cast
      nlinarith
    · have j3 : j + 1 ≤ 2 ^ c := by omega
      have j3' : (j : ℝ) + 1 ≤ 2 ^ c := by exact_mod_cast j3
      have j1' : -(2 ^ c : ℝ) ≤ j := by exact_mod_cast j1
      have : y = x := by rw [hy]; apply clip_of_mem <;> nlinarith
      rw [Int.floor_eq_iff, this, hj, mul_div_cancel_left₀ _ hs.ne']
      constructor <;> linarith

/-- **C63, levels.** A mid-riser quantizer of `b` bits takes exactly `2 ^ b` values, the centres of `2 ^ b`
equal intervals of the full scale. -/
theorem C63_riser_levels (b : Nat) (hb : 1 ≤ b) :
    Set.range (midRiser b) = (fun k : Nat => -1 + riserStep b * (k + 1 / 2)) '' {k | k < 2 ^ b} ∧
      (Set.range (midRiser b)).ncard = 2 ^ b := by
  have hs := riserStep_pos b
  have hL : riserStep b * 2 ^ b = 2 := by unfold riserStep; field_simp
  have hr : Set.range (midRiser b) =
      (fun k : Nat => -1 + riserStep b * (k + 1 / 2)) '' {k | k < 2 ^ b} := by
    ext v
    constructor
    · rintro ⟨x, rfl⟩
      obtain ⟨k, hk, he, -⟩ := midRiser_level b hb x
      exact ⟨k, hk, he.symm⟩
    · rintro ⟨k, hk, rfl⟩
      refine ⟨-1 + riserStep b * (k + 1 / 2), ?_⟩
      obtain ⟨j, hj, he, -, -, hin⟩ := midRiser_level b hb (-1 + riserStep b * (k + 1 / 2))
      have hk' : (k : ℝ) + 1 ≤ 2 ^ b := by exact_mod_cast (show k < 2 ^ b from hk)
      have hk0 : (0 : ℝ) ≤ k := Nat.cast_nonneg k
      obtain ⟨i1, i2⟩ := hin (by nlinarith) (by nlinarith)
      have : j = k := by
        have h1 : (j : ℝ) < k + 1 := by nlinarith
        have h2 : (k : ℝ) < j + 1 := by nlinarith
        have h1' : j < k + 1 := by exact_mod_cast h1
        have h2' : k < j + 1 := by exact_mod_cast h2
        omega
      rw [he, this]
  refine ⟨hr, ?_⟩
  rw [hr, Set.ncard_image_of_injective]
  · have : {k : ℕ | k < 2 ^ b} = ((Finset.range (2 ^ b) : Finset ℕ) : Set ℕ) := by ext; simp
    rw [this, Set.ncard_coe_finset, Finset.card_range]
  · intro i j h
    have h' : riserStep b * ((i : ℝ) - j) = 0 := by simp only at h; linarith
    rcases mul_eq_zero.mp h' with h | h
    · exact absurd h hs.ne'
    · exact_mod_cast sub_eq_zero.mp h

/-- C63 is false for mid-tread quantizers: they take `2 ^ b + 1` values, one more than the number of
quantisation levels of a converter of `b` bits, and as many positive as negative ones (documented is one
positive level less). -/
theorem C63_tread_levels_fails (b : Nat) (hb : 1 ≤ b) :
    Set.range (midTread b) = (fun k : Int => treadStep b * k) '' Set.Icc (-(2 ^ (b - 1))) (2 ^ (b - 1)) ∧
      (Set.range (midTread b)).ncard = 2 ^ b + 1 := by
  have hs := treadStep_pos b
  have hr : Set.range (midTread b) =
      (fun k : Int => treadStep b * k) '' Set.Icc (-(2 ^ (b - 1))) (2 ^ (b - 1)) := by
    ext v
    constructor
    · rintro ⟨x, rfl⟩
      obtain ⟨k, h1, h2, h3, -⟩ := midTread_level b hb x
      exact ⟨k, ⟨h1, h2⟩, h3.symm⟩
    · rintro ⟨k, ⟨h1, h2⟩, rfl⟩
      refine ⟨treadStep b * k, ?_⟩
      obtain ⟨j, -, -, h3, -, -, -, h4⟩ := midTread_level b hb (treadStep b * k)
      rw [h3, h4 k rfl h1 h2]
  refine ⟨hr, ?_⟩
  rw [hr, Set.ncard_image_of_injective]
  · rw [← Finset.coe_Icc, Set.ncard_coe_finset, Int.card_Icc]
    obtain ⟨c, rfl⟩ : ∃ c, b = c + 1 := ⟨b - 1, by omega⟩
    simp only [Nat.add_sub_cancel]
    have : (2 : ℤ) ^ c + 1 - -2 ^ c = ((2 ^ (c + 1) + 1 : ℕ) : ℤ) := by push_cast; ring
    rw [this, Int.toNat_natCast]
  · intro i j h
    have h' : treadStep b * ((i : ℝ) - j) = 0 := by simp only at h; linarith
    rcases mul_eq_zero.mp h' with h | h
    · exact absurd h hs.ne'
    · exact_mod_cast sub_eq_zero.mp h

/-- **C63, quantizer.** Quantisation preserves the order of samples, does not change quantised samples, stays
at least half a step below full scale, and moves no sample within full scale by more than half a step.
Mid-tread quantizers keep zero, mid-riser quantizers move it by half a step. -/
theorem C63_quantizer (t : QuantizerType) (b : Nat) (hb : 1 ≤ b) :
    Monotone (component t b) ∧
    (∀ x, component t b (component t b x) = component t b x) ∧
    (∀ x, |component t b x| ≤ 1 - stepOf t b / 2) ∧
    (∀ x, |x| ≤ 1 → |component t b x - x| ≤ stepOf t b / 2) ∧
    (component .midTread b 0 = 0 ∧ component .midRiser b 0 = riserStep b / 2) := by
  have zero : component .midTread b 0 = 0 ∧ component .midRiser b 0 = riserStep b / 2 := by
    constructor
    · obtain ⟨k, -, -, h3, -, -, -, h4⟩ := midTread_level b hb 0
      have := h4 0 (by simp) (by simp) (by positivity)
      show midTread b 0 = 0
      rw [h3, this]
      simp
    · show midRiser b 0 = _
      have hs := riserStep_pos b
      have hL : riserStep b * 2 ^ b = 2 := by unfold riserStep; field_simp
      have hp : (2 : ℝ) ≤ 2 ^ b := by
        calc (2 : ℝ) = 2 ^ 1 := by norm_num
          _ ≤ 2 ^ b := pow_le_pow_right₀ (by norm_num) hb
      unfold midRiser
      rw [clip_of_mem] <;> simp only [zero_div, Int.floor_zero, Int.cast_zero] <;> nlinarith
  cases t with
  | midRiser =>
    have hs := riserStep_pos b
    have hL : riserStep b * 2 ^ b = 2 := by unfold riserStep; field_simp
    refine ⟨?_, ?_, ?_, ?_, zero⟩
    · intro x y h
      apply clip_mono
      apply mul_le_mul_of_nonneg_left _ hs.le
      have := Int.floor_le_floor (div_le_div_of_nonneg_right h hs.le)
      have : ((⌊x / riserStep b⌋ : ℤ) : ℝ) ≤ ⌊y / riserStep b⌋ := by exact_mod_cast this
      linarith
    · intro x
      show midRiser b (midRiser b x) = midRiser b x
      obtain ⟨k, hk, he, -⟩ := midRiser_level b hb x
      rw [he]
      obtain ⟨j, hj, he', -, -, hin⟩ := midRiser_level b hb (-1 + riserStep b * (k + 1 / 2))
      have hk' : (k : ℝ) + 1 ≤ 2 ^ b := by exact_mod_cast hk
      have hk0 : (0 : ℝ) ≤ k := Nat.cast_nonneg k
      obtain ⟨i1, i2⟩ := hin (by nlinarith) (by nlinarith)
      have : j = k := by
        have h1 : (j : ℝ) < k + 1 := by nlinarith
        have h2 : (k : ℝ) < j + 1 := by nlinarith
        have h1' : j < k + 1 := by exact_mod_cast h1
        have h2' : k < j + 1 := by exact_mod_cast h2
        omega
      rw [he', this]
    · intro x
      show |midRiser b x| ≤ 1 - riserStep b / 2
      obtain ⟨k, hk, he, -⟩ := midRiser_level b hb x
      have hk' : (k : ℝ) + 1 ≤ 2 ^ b := by exact_mod_cast hk
      have hk0 : (0 : ℝ) ≤ k := Nat.cast_nonneg k
      rw [he, abs_le]
      constructor <;> nlinarith
    · intro x hx
      show |midRiser b x - x| ≤ riserStep b / 2
      obtain ⟨h1, h2⟩ := abs_le.mp hx
      obtain ⟨k, hk, he, -, htop, hin⟩ := midRiser_level b hb x
      rw [he, abs_le]
      by_cases h3 : x = 1
      · have : k = 2 ^ b - 1 := htop (by linarith)
        have hk' : (k : ℝ) = 2 ^ b - 1 := by
          rw [this, Nat.cast_sub Nat.one_le_two_pow]; push_cast; ring
        rw [hk']
        constructor <;> nlinarith
      · obtain ⟨i1, i2⟩ := hin h1 (lt_of_le_of_ne h2 h3)
        constructor <;> nlinarith
  | midTread =>
    have hs := treadStep_pos b
    refine ⟨?_, ?_, ?_, ?_, zero⟩
    · intro x y h
      apply mul_le_mul_of_nonneg_left _ hs.le
      have := Int.floor_le_floor (add_le_add_left
        (div_le_div_of_nonneg_right (clip_mono (-1) (1 - treadStep b) h) hs.le) (1 / 2))
      exact_mod_cast this
    · intro x
      show midTread b (midTread b x) = midTread b x
      obtain ⟨k, h1, h2, h3, -⟩ := midTread_level b hb x
      obtain ⟨j, -, -, h5, -, -, -, h4⟩ := midTread_level b hb (treadStep b * k)
      rw [h3, h5, h4 k rfl h1 h2]
    · intro x
      show |midTread b x| ≤ 1 - treadStep b / 2
      obtain ⟨k, h1, h2, h3, -⟩ := midTread_level b hb x
      obtain ⟨c, rfl⟩ : ∃ c, b = c + 1 := ⟨b - 1, by omega⟩
      have hL : treadStep (c + 1) * (2 ^ c + 1 / 2) = 1 := by
        unfold treadStep
        rw [pow_succ]
        field_simp
      simp only [Nat.add_sub_cancel] at h1 h2
      have h1' : -(2 ^ c : ℝ) ≤ k := by exact_mod_cast h1
      have h2' : (k : ℝ) ≤ 2 ^ c := by exact_mod_cast h2
      rw [h3, abs_le]
      constructor <;> nlinarith
    · intro x hx
      show |midTread b x - x| ≤ treadStep b / 2
      obtain ⟨h1, h2⟩ := abs_le.mp hx
      obtain ⟨k, -, -, h3, h4, -⟩ := midTread_level b hb x
      obtain ⟨h5, h6⟩ := h4 h1 h2
      rw [h3, abs_le]
      constructor <;> linarith

/-! ## Gain control -/

theorem peak_spec {S N : Nat} (hS : 0 < S) (hN : 0 < N) (x : Frame S N) :
    ∃ a, peakAmplitude x = .ok a ∧ 0 ≤ a ∧ (∀ s n, |(x s n).re| ≤ a ∧ |(x s n).im| ≤ a) ∧
      ∃ s n, a = |(x s n).re| ∨ a = |(x s n).im| := by
  unfold peakAmplitude
  rw [dif_pos ⟨hS, hN⟩]
  refine ⟨_, rfl, ?_, ?_, ?_⟩
  · exact le_max_of_le_right (le_max_right _ _)
  · intro s n
    constructor
    · apply le_max_of_le_left
      exact Finset.le_sup' (fun p : Fin S × Fin N => |(x p.1 p.2).re|) (Finset.mem_univ (s, n))
    · apply le_max_of_le_right
      apply le_max_of_le_left
      exact Finset.le_sup' (fun p : Fin S × Fin N => |(x p.1 p.2).im|) (Finset.mem_univ (s, n))
  · obtain ⟨p, -, hp⟩ := Finset.exists_mem_eq_sup' (s := (Finset.univ : Finset (Fin S × Fin N)))
      ⟨(⟨0, hS⟩, ⟨0, hN⟩), Finset.mem_univ _⟩ (fun p : Fin S × Fin N => |(x p.1 p.2).re|)
    obtain ⟨q, -, hq⟩ := Finset.exists_mem_eq_sup' (s := (Finset.univ : Finset (Fin S × Fin N)))
      ⟨(⟨0, hS⟩, ⟨0, hN⟩), Finset.mem_univ _⟩ (fun p : Fin S × Fin N => |(x p.1 p.2).im|)
    rw [hp, hq, max_eq_left (abs_nonneg (x q.1 q.2).im)]
    rcases max_cases |(x p.1 p.2).re| |(x q.1 q.2).im| with ⟨h, -⟩ | ⟨h, -⟩
    · exact ⟨p.1, p.2, .inl h⟩
    · exact ⟨q.1, q.2, .inr h⟩

/-- **C63, conversion with peak gain control.** With a backoff of at least one no sample is clipped: after
rescaling, every component of every sample is off by at most half a quantisation step times the greatest
component of the frame times the backoff. -/
theorem C63_agc {S N : Nat} (t : QuantizerType) (b : Nat) (hb : 1 ≤ b) (backoff : ℝ) (hbo : 1 ≤ backoff)
    (x : Frame S N) (hS : 0 < S) (hN : 0 < N) (a : ℝ)
    (ha : ∀ s n, |(x s n).re| ≤ a ∧ |(x s n).im| ≤ a) (hat : ∃ s n, a = |(x s n).re| ∨ a = |(x s n).im|)
    (hpos : 0 < a) :
    ∃ y, convertFrame t (some b) (.maxAmplitude backoff) true x = .ok y ∧
      ∀ s n, |(y s n).re - (x s n).re| ≤ stepOf t b / 2 * (a * backoff) ∧
        |(y s n).im - (x s n).im| ≤ stepOf t b / 2 * (a * backoff) := by
  obtain ⟨a', h1, -, h3, h4⟩ := peak_spec hS hN x
  have haa : a' = a := by
    apply le_antisymm
    · obtain ⟨s, n, h | h⟩ := h4 <;> rw [h]
      · exact (ha s n).1
      · exact (ha s n).2
    · obtain ⟨s, n, h | h⟩ := hat <;> rw [h]
      · exact (h3 s n).1
      · exact (h3 s n).2
  subst haa
  have hg : 0 < a' * backoff := by positivity
  have hest : Gain.estimate x (.maxAmplitude backoff) = .ok (1 / (a' * backoff)) := by
    unfold Gain.estimate
    simp only [h1]
    unfold gainOf
    rw [if_pos hpos]
  refine ⟨_, by unfold convertFrame; rw [hest], ?_⟩
  have key : ∀ r : ℝ, |r| ≤ a' → |component t b (r * (1 / (a' * backoff))) / (1 / (a' * backoff)) - r| ≤
      stepOf t b / 2 * (a' * backoff) := by
    intro r hr
    have hin : |r * (1 / (a' * backoff))| ≤ 1 := by
      rw [abs_mul, abs_of_pos (by positivity : 0 < 1 / (a' * backoff)), mul_one_div, div_le_one hg]
      nlinarith
    have hq := (C63_quantizer t b hb).2.2.2.1 _ hin
    have heq : component t b (r * (1 / (a' * backoff))) / (1 / (a' * backoff)) - r =
        (component t b (r * (1 / (a' * backoff))) - r * (1 / (a' * backoff))) * (a' * backoff) := by
      field_simp
    rw [heq, abs_mul, abs_of_pos hg]
    exact mul_le_mul_of_nonneg_right hq hg.le
  intro s n
  have hre : ∀ (z : ℂ) (g : ℝ), (z / (g : ℂ)).re = z.re / g ∧ (z / (g : ℂ)).im = z.im / g :=
    fun z g => ⟨Complex.div_ofReal_re z g, Complex.div_ofReal_im z g⟩
  have hmul : ∀ (z : ℂ) (g : ℝ), (z * (g : ℂ)).re = z.re * g ∧ (z * (g : ℂ)).im = z.im * g :=
    fun z g => ⟨by simp, by simp⟩
  simp only [Matrix.map_apply, if_true, quantize]
  rw [(hre _ _).1, (hre _ _).2, (hmul _ _).1, (hmul _ _).2]
  exact ⟨key _ (h3 s n).1, key _ (h3 s n).2⟩

open scoped Matrix.Norms.L2Operator in
theorem row_norm {N : Nat} (x : Matrix (Fin 1) (Fin N) ℝ) : ‖x‖ = Real.sqrt (∑ n, x 0 n ^ 2) := by
  have h1 : x * x.conjTranspose = Matrix.diagonal fun _ => ∑ n, x 0 n ^ 2 := by
    ext i j
    rw [Subsingleton.elim i 0, Subsingleton.elim j 0, Matrix.mul_apply, Matrix.diagonal_apply_eq]
    apply Finset.sum_congr rfl
    intro n _
    simp [Matrix.conjTranspose_apply, sq]
  have h2 : ‖x‖ * ‖x‖ = ∑ n, x 0 n ^ 2 := by
    have := Matrix.l2_opNorm_conjTranspose_mul_self x.conjTranspose
    rw [Matrix.conjTranspose_conjTranspose, Matrix.l2_opNorm_conjTranspose, h1,
      Matrix.l2_opNorm_diagonal] at this
    rw [← this]
    have hnn : 0 ≤ ∑ n, x 0 n ^ 2 := Finset.sum_nonneg fun n _ => sq_nonneg _
    rw [pi_norm_const, Real.norm_of_nonneg hnn]
  rw [← h2, Real.sqrt_mul_self (norm_nonneg x)]

/-- C63, root mean square gain control of a single stream: after the adjustment, the greater of the root mean
squares of real and imaginary parts is the reciprocal of the backoff. -/
theorem C63_rms_partial {N : Nat} (hN : 0 < N) (backoff : ℝ) (hbo : 0 < backoff) (x : Frame 1 N)
    (hx : ∃ n, x 0 n ≠ 0) :
    ∃ g, Gain.estimate x (.rmsAmplitude backoff) = .ok g ∧ 0 < g ∧
      max (Real.sqrt ((∑ n, (x 0 n * g).re ^ 2) / N)) (Real.sqrt ((∑ n, (x 0 n * g).im ^ 2) / N)) =
        1 / backoff := by
  have hrms : ∀ y : Matrix (Fin 1) (Fin N) ℝ, rmsValue y = Real.sqrt ((∑ n, y 0 n ^ 2) / N) := by
    intro y
    unfold rmsValue
    rw [row_norm, Nat.cast_one, one_mul, Real.sqrt_div (Finset.sum_nonneg fun n _ => sq_nonneg _)]
  set A := max (rmsValue (x.map Complex.re)) (max (rmsValue (x.map Complex.im)) 0) with hA
  have hNr : (0 : ℝ) < N := by exact_mod_cast hN
  have hre : 0 ≤ rmsValue (x.map Complex.re) := by rw [hrms]; positivity
  have him : 0 ≤ rmsValue (x.map Complex.im) := by rw [hrms]; positivity
  have hApos : 0 < A := by
    obtain ⟨n, hn⟩ := hx
    have hsum : ∀ f : ℂ → ℝ, f (x 0 n) ≠ 0 → 0 < rmsValue (x.map f) := by
      intro f hf
      rw [hrms]
      apply Real.sqrt_pos.mpr
      apply div_pos _ hNr
      apply lt_of_lt_of_le (by positivity : 0 < f (x 0 n) ^ 2)
      exact Finset.single_le_sum (f := fun n => (x.map f) 0 n ^ 2) (fun _ _ => sq_nonneg _)
        (Finset.mem_univ n)
    by_cases h : (x 0 n).re = 0
    · have h' : (x 0 n).im ≠ 0 := fun h' => hn (Complex.ext h h')
      exact lt_of_lt_of_le (hsum _ h') (le_max_of_le_right (le_max_left _ _))
    · exact lt_of_lt_of_le (hsum _ h) (le_max_left _ _)
  have hg : (0 : ℝ) < 1 / (A * backoff) := by positivity
  refine ⟨1 / (A * backoff), ?_, hg, ?_⟩
  · simp only [Gain.estimate]
    rw [← hA]
    unfold gainOf
    rw [if_pos hApos]
  · set g := 1 / (A * backoff) with hgd
    have hmulre : ∀ n, (x 0 n * (g : ℂ)).re ^ 2 = (x.map Complex.re) 0 n ^ 2 * g ^ 2 := by
      intro n; simp [Matrix.map_apply]; ring
    have hmulim : ∀ n, (x 0 n * (g : ℂ)).im ^ 2 = (x.map Complex.im) 0 n ^ 2 * g ^ 2 := by
      intro n; simp [Matrix.map_apply]; ring
    have hsc : ∀ y : Matrix (Fin 1) (Fin N) ℝ,
        Real.sqrt ((∑ n, y 0 n ^ 2 * g ^ 2) / N) = rmsValue y * g := by
      intro y
      rw [← Finset.sum_mul, mul_div_right_comm, Real.sqrt_mul (by positivity), Real.sqrt_sq hg.le, hrms]
    rw [Finset.sum_congr rfl fun n _ => hmulre n, Finset.sum_congr rfl fun n _ => hmulim n, hsc, hsc,
      ← max_mul_of_nonneg _ _ hg.le]
    have : max (rmsValue (x.map Complex.re)) (rmsValue (x.map Complex.im)) = A := by
      rw [hA, max_eq_left him]
    rw [this, hgd]
    field_simp

open scoped Matrix.Norms.L2Operator in
/-- C63 is false for root mean square gain control of several streams: the two-norm of a matrix is its largest
singular value. For two streams whose real parts are orthogonal, the estimate only counts the energy of
the stronger one. -/
theorem C63_rms_fails {N : Nat} (x : Matrix (Fin 2) (Fin N) ℝ)
    (horth : ∑ n, x 0 n * x 1 n = 0) :
    rmsValue x = Real.sqrt (max (∑ n, x 0 n ^ 2) (∑ n, x 1 n ^ 2)) / Real.sqrt (2 * N) ∧
    ((∃ n, x 0 n ≠ 0) → (∃ n, x 1 n ≠ 0) →
      rmsValue x < Real.sqrt ((∑ s, ∑ n, x s n ^ 2) / (2 * N))) := by
  have e0 : ∀ s, 0 ≤ ∑ n, x s n ^ 2 := fun s => Finset.sum_nonneg fun n _ => sq_nonneg _
  have h1 : x * x.conjTranspose = Matrix.diagonal fun s => ∑ n, x s n ^ 2 := by
    ext i j
    rw [Matrix.mul_apply]
    fin_cases i <;> fin_cases j <;> simp [Matrix.conjTranspose_apply, Matrix.diagonal, sq]
    · exact horth
    · rw [← horth]
      exact Finset.sum_congr rfl fun n _ => mul_comm _ _
  have h2 : ‖x‖ * ‖x‖ = max (∑ n, x 0 n ^ 2) (∑ n, x 1 n ^ 2) := by
    have := Matrix.l2_opNorm_conjTranspose_mul_self x.conjTranspose
    rw [Matrix.conjTranspose_conjTranspose, Matrix.l2_opNorm_conjTranspose, h1,
      Matrix.l2_opNorm_diagonal] at this
    rw [← this]
    apply le_antisymm
    · rw [pi_norm_le_iff_of_nonneg (le_max_of_le_left (e0 0))]
      intro s
      rw [Real.norm_of_nonneg (e0 s)]
      fin_cases s
      · exact le_max_left _ _
      · exact le_max_right _ _
    · apply max_le
      · calc _ = ‖∑ n, x 0 n ^ 2‖ := (Real.norm_of_nonneg (e0 0)).symm
          _ ≤ _ := norm_le_pi_norm (fun s => ∑ n, x s n ^ 2) 0
      · calc _ = ‖∑ n, x 1 n ^ 2‖ := (Real.norm_of_nonneg (e0 1)).symm
          _ ≤ _ := norm_le_pi_norm (fun s => ∑ n, x s n ^ 2) 1
  have h3 : rmsValue x = Real.sqrt (max (∑ n, x 0 n ^ 2) (∑ n, x 1 n ^ 2)) / Real.sqrt (2 * N) := by
    unfold rmsValue
    rw [← h2, Real.sqrt_mul_self (norm_nonneg x)]
    norm_num
  refine ⟨h3, ?_⟩
  rintro ⟨n, hn⟩ ⟨m, hm⟩
  have p0 : 0 < ∑ n, x 0 n ^ 2 := lt_of_lt_of_le (by positivity : 0 < x 0 n ^ 2)
    (Finset.single_le_sum (f := fun n => x 0 n ^ 2) (fun _ _ => sq_nonneg _) (Finset.mem_univ n))
  have p1 : 0 < ∑ n, x 1 n ^ 2 := lt_of_lt_of_le (by positivity : 0 < x 1 m ^ 2)
    (Finset.single_le_sum (f := fun n => x 1 n ^ 2) (fun _ _ => sq_nonneg _) (Finset.mem_univ m))
  have hN : (0 : ℝ) < N := by exact_mod_cast lt_of_le_of_lt (Nat.zero_le n) n.2
  rw [h3, Real.sqrt_div (Finset.sum_nonneg fun s _ => e0 s)]
  apply div_lt_div_of_pos_right _ (Real.sqrt_pos.mpr (by positivity))
  apply Real.sqrt_lt_sqrt (le_max_of_le_left (e0 0))
  rw [Fin.sum_univ_two]
  exact max_lt (by linarith) (by linarith)

/-! ## Frames -/

theorem convertLoop_spec {γ : Type} (conv : List γ → Except PyErr (List γ)) (n : Nat) (input : List γ)
    (hconv : ∀ frame : List γ, frame.length = n → ∃ out, conv frame = .ok out ∧ out.length = n) :
    ∀ count f, (f + count) * n ≤ input.length →
      ∃ out, convertLoop conv n input count f = .ok out ∧ out.length = count * n ∧
        ∀ k < count, conv ((input.drop ((f + k) * n)).take n) = .ok ((out.drop (k * n)).take n) := by
  intro count
  induction count with
  | zero => exact fun f _ => ⟨[], rfl, by simp, by simp⟩
  | succ count ih =>
    intro f h
    have hfit : (f + 1) * n ≤ input.length := by
      refine le_trans ?_ h
      apply Nat.mul_le_mul_right
      omega
    have hlen : ((input.drop (f * n)).take n).length = n := by
      rw [List.length_take, List.length_drop]
      rw [Nat.succ_mul] at hfit
      omega
    obtain ⟨out, h1, h2⟩ := hconv _ hlen
    obtain ⟨rest, r1, r2, r3⟩ := ih (f + 1) (by convert h using 2; omega)
    refine ⟨out ++ rest, ?_, ?_, ?_⟩
    · rw [convertLoop, h1]
      simp only
      unfold assignFrame
      rw [if_pos h2]
      simp only
      rw [r1]
    · rw [List.length_append, h2, r2, Nat.succ_mul, Nat.add_comm]
    · intro k hk
      cases k with
      | zero =>
        simp only [Nat.add_zero, Nat.zero_mul, List.drop_zero]
        rw [h1, List.take_append_of_le_length h2.ge, List.take_of_length_le h2.le]
      | succ k =>
        have := r3 k (by omega)
        rw [show f + 1 + k = f + (k + 1) from by omega] at this
        have hd : (out ++ rest).drop ((k + 1) * n) = rest.drop (k * n) := by
          rw [Nat.succ_mul, Nat.add_comm (k * n), ← List.drop_drop, List.drop_left' h2]
        rw [this, hd]

/-- **C63, frames.** A signal that consists of whole conversion frames is converted frame by frame and keeps
its length. Without a frame duration the signal is a single frame. -/
theorem C63_frames {γ : Type} (conv : List γ → Except PyErr (List γ)) (duration rate : ℚ) (input : List γ)
    (n m : Nat) (hn : frameSamples duration rate input.length = n) (hn0 : 0 < n)
    (hm : input.length = m * n)
    (hconv : ∀ frame : List γ, frame.length = n → ∃ out, conv frame = .ok out ∧ out.length = n) :
    ∃ out, adcPropagate conv duration rate input = .ok out ∧ out.length = input.length ∧
      ∀ k < m, conv ((input.drop (k * n)).take n) = .ok ((out.drop (k * n)).take n) := by
  have hnum : (input.length + n - 1) / n = m := by
    rw [hm]
    apply Nat.div_eq_of_lt_le
    · omega
    · rw [Nat.succ_mul]; omega
  obtain ⟨out, h1, h2, h3⟩ := convertLoop_spec conv n input hconv m 0 (by rw [Nat.zero_add]; omega)
  refine ⟨out, ?_, by omega, ?_⟩
  · unfold adcPropagate
    simp only [hn]
    rw [if_pos hn0, hnum, h1]
  · intro k hk
    have := h3 k hk
    rwa [Nat.zero_add] at this

/-- Without a frame duration the whole signal is one frame. -/
theorem C63_single_frame {γ : Type} (conv : List γ → Except PyErr (List γ)) (rate : ℚ) (input out : List γ)
    (h0 : input ≠ []) (h : conv input = .ok out) (hl : out.length = input.length) :
    adcPropagate conv 0 rate input = .ok out := by
  have hpos := List.length_pos_iff.mpr h0
  unfold adcPropagate frameSamples
  simp only [lt_irrefl, if_false]
  rw [if_pos hpos, show (input.length + input.length - 1) / input.length = 1 from by
    apply Nat.div_eq_of_lt_le <;> omega]
  rw [convertLoop]
  simp only [Nat.zero_mul, List.drop_zero, List.take_length, h]
  unfold assignFrame
  rw [if_pos hl]
  simp [convertLoop]

/-- The frame converter meets the assumption of `C63_frames` and `C63_frames_fails` for every gain control,
quantizer and resolution. -/
theorem C63_converter {S : Nat} (hS : 0 < S) (t : QuantizerType) (bits : Option Nat) (g : Gain)
    (rescale : Bool) (frame : List (Fin S → ℂ)) (h0 : frame ≠ []) :
    ∃ out, convertColumns t bits g rescale frame = .ok out ∧ out.length = frame.length := by
  have hg : ∃ gain, g.estimate (Matrix.of fun s (k : Fin frame.length) => frame[k] s) = .ok gain := by
    cases g with
    | constant c => exact ⟨c, rfl⟩
    | maxAmplitude backoff =>
      obtain ⟨a, h, -⟩ := peak_spec hS (List.length_pos_iff.mpr h0)
        (Matrix.of fun s (k : Fin frame.length) => frame[k] s)
      exact ⟨gainOf a backoff, by simp only [Gain.estimate, h]⟩
    | rmsAmplitude backoff => exact ⟨_, rfl⟩
  obtain ⟨gain, hg⟩ := hg
  unfold convertColumns convertFrame
  rw [hg]
  exact ⟨_, rfl, by simp⟩

/-- C63 is false for signals that do not consist of whole conversion frames: an incomplete last frame of more
than one sample raises, one of a single sample is stretched to a whole frame, and frames shorter than half
a sample make the converter return no samples at all. Shown for signals of less than two frames. -/
theorem C63_frames_fails {γ : Type} (conv : List γ → Except PyErr (List γ)) (duration rate : ℚ)
    (input : List γ) (n : Nat) (hn : frameSamples duration rate input.length = n)
    (hconv : ∀ frame : List γ, frame ≠ [] → ∃ out, conv frame = .ok out ∧ out.length = frame.length) :
    (n + 1 < input.length → input.length < 2 * n → adcPropagate conv duration rate input = .error .value) ∧
    (1 < n → input.length = n + 1 →
      ∃ out last, adcPropagate conv duration rate input = .ok (out ++ List.replicate n last) ∧
        out.length = n ∧ conv (input.drop n) = .ok [last]) ∧
    (n = 0 → adcPropagate conv duration rate input = .ok []) := by
  have first : 0 < n → n ≤ input.length → ∃ out, conv (input.take n) = .ok out ∧ out.length = n := by
    intro h0 h1
    obtain ⟨out, k1, k2⟩ := hconv (input.take n) (by
      apply List.ne_nil_of_length_pos
      rw [List.length_take]; omega)
    exact ⟨out, k1, by rw [k2, List.length_take]; omega⟩
  refine ⟨?_, ?_, ?_⟩
  · intro h1 h2
    obtain ⟨out, k1, k2⟩ := first (by omega) (by omega)
    have htake : (input.drop n).take n = input.drop n := by
      apply List.take_of_length_le
      rw [List.length_drop]; omega
    obtain ⟨out2, k3, k4⟩ := hconv (input.drop n) (by
      apply List.ne_nil_of_length_pos
      rw [List.length_drop]; omega)
    rw [List.length_drop] at k4
    unfold adcPropagate
    simp only [hn]
    rw [if_pos (by omega), show (input.length + n - 1) / n = 2 from by
      apply Nat.div_eq_of_lt_le <;> omega]
    rw [convertLoop]
    simp only [Nat.zero_mul, List.drop_zero, k1, assignFrame, k2, if_true]
    rw [convertLoop]
    simp only [Nat.zero_add, Nat.one_mul, htake, k3]
    unfold assignFrame
    rw [if_neg (by omega)]
    match out2, k4 with
    | [], _ => rfl
    | [x], k4 => simp at k4; omega
    | _ :: _ :: _, _ => rfl
  · intro h1 h2
    obtain ⟨out, k1, k2⟩ := first (by omega) (by omega)
    have htake : (input.drop n).take n = input.drop n := by
      apply List.take_of_length_le
      rw [List.length_drop]; omega
    obtain ⟨out2, k3, k4⟩ := hconv (input.drop n) (by
      apply List.ne_nil_of_length_pos
      rw [List.length_drop]; omega)
    rw [List.length_drop, h2] at k4
    have k5 : out2.length = 1 := by omega
    obtain ⟨last, rfl⟩ := List.length_eq_one_iff.mp k5
    refine ⟨out, last, ?_, k2, k3⟩
    unfold adcPropagate
    simp only [hn]
    rw [if_pos (by omega), show (input.length + n - 1) / n = 2 from by
      apply Nat.div_eq_of_lt_le <;> omega]
    rw [convertLoop]
    simp only [Nat.zero_mul, List.drop_zero, k1, assignFrame, k2, if_true]
    rw [convertLoop]
    simp only [Nat.zero_add, Nat.one_mul, htake, k3, assignFrame, List.length_singleton]
    rw [if_neg (by omega)]
    simp [convertLoop]
  · intro h
    unfold adcPropagate
    simp only [hn]
    rw [if_neg (by omega)]
    rfl

/-- C63 is false for digital-analog converters: whatever their resolution, they do not quantise at all and emit
arbitrarily many values. -/
theorem C63_dac_fails (b : Nat) :
    ∃ input : List ℂ, 2 ^ b < (dacPropagate (some b) input).toFinset.card := by
  refine ⟨List.map (fun n : ℕ => (n : ℂ)) (List.range (2 ^ b + 1)), ?_⟩
  unfold dacPropagate
  rw [List.toFinset_card_of_nodup, List.length_map, List.length_range]
  · omega
  · exact List.Nodup.map (fun i j h => by exact_mod_cast h) List.nodup_range

/-- Resolutions below zero are refused, zero means none. -/
theorem C63_bits (n : Int) :
    (n < 0 → setBits (some n) = .error .value) ∧ (n = 0 → setBits (some n) = .ok none) ∧
    (0 < n → ∃ b, setBits (some n) = .ok (some b) ∧ (b : Int) = n) := by
  refine ⟨fun h => by simp [setBits, h], fun h => by simp [setBits, h], fun h => ⟨n.toNat, ?_, ?_⟩⟩
  · simp [setBits, h, not_lt.mpr h.le]
  · exact Int.toNat_of_nonneg h.le

/-- The hypotheses of `C63_agc` are met by a single sample `3 - 4j`, whose peak is four. -/
example : ∃ y, convertFrame .midRiser (some 8) (.maxAmplitude 1) true
    (Matrix.of fun (_ : Fin 1) (_ : Fin 1) => (⟨3, -4⟩ : ℂ)) = .ok y ∧
      ∀ s n, |(y s n).re - 3| ≤ stepOf .midRiser 8 / 2 * (4 * 1) ∧
        |(y s n).im - -4| ≤ stepOf .midRiser 8 / 2 * (4 * 1) :=
  C63_agc .midRiser 8 (by norm_num) 1 le_rfl _ (by norm_num) (by norm_num) 4
    (fun s n => by simp; norm_num) ⟨0, 0, by simp⟩ (by norm_num)

/-- Three samples in frames of two: the last sample is stretched. -/
example : adcPropagate (fun xs : List ℚ => .ok xs) 2 1 [1, 2, 3] = .ok [1, 2, 3, 3] := by decide +kernel

/-- Five samples in frames of three: refused. -/
example : adcPropagate (fun xs : List ℚ => .ok xs) 3 1 [1, 2, 3, 4, 5] = .error .value := by
  decide +kernel

/-- Two orthogonal streams. -/
example : ∑ n, (!![1, 1; 1, -1] : Matrix (Fin 2) (Fin 2) ℝ) 0 n * (!![1, 1; 1, -1] : Matrix (Fin 2) (Fin 2) ℝ) 1 n
    = 0 := by simp [Fin.sum_univ_two]

end Verif.Rf.Ad
