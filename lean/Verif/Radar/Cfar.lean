import Verif.Radar.Detect
import Mathlib.Algebra.BigOperators.Group.Finset.Basic
import Mathlib.Algebra.BigOperators.Ring.Finset
import Mathlib.Algebra.Order.BigOperators.Group.Finset
import Mathlib.Analysis.SpecialFunctions.Pow.Real

/-!
# C51: constant false alarm rate detector

`radar/detection.py` 467-646.
-/

namespace Verif.Radar

open Finset

/-- Settings of a `CFARDetector`: training and guard cells per dimension and the probability of false
alarms. -/
structure Cfar where
  t0 : Nat
  t1 : Nat
  g0 : Nat
  g1 : Nat
  pfa : ℝ

/-- `CFARDetector.__init__`, `radar/detection.py` 504-583, for integer arguments. -/
noncomputable def mkCfar (t0 t1 g0 g1 : Int) (pfa : ℝ) : Option Cfar :=
  open Classical in
  if t0 ≤ 0 ∨ t1 ≤ 0 then none
  else if g0 < 0 ∨ g1 < 0 then none
  else if pfa < 0 ∨ pfa > 1 then none
  else some ⟨t0.toNat, t1.toNat, g0.toNat, g1.toNat, pfa⟩

/-- `window_size_x`, `radar/detection.py` 588. -/
def Cfar.wx (s : Cfar) : Nat := 2 * s.t0 + 2 * s.g0 + 1

/-- `window_size_y`, `radar/detection.py` 589. -/
def Cfar.wy (s : Cfar) : Nat := 2 * s.t1 + 2 * s.g1 + 1

/-- The kernel, `radar/detection.py` 598-603: ones, and zeros in the slices `[t : -t]`. -/
def Cfar.kernel (s : Cfar) (u v : Nat) : ℝ :=
  if s.t0 ≤ u ∧ u < s.wx - s.t0 ∧ s.t1 ≤ v ∧ v < s.wy - s.t1 then 0 else 1

/-- `scipy.signal.convolve(…, mode="same", method="direct")` with an array of size `nb` × `nc` and the
kernel: the centre of the full convolution, zeros outside of the array. -/
def Cfar.convolve (s : Cfar) (nb nc : Nat) (d : Nat → Nat → ℝ) (j k : Nat) : ℝ :=
  ∑ u ∈ range s.wx, ∑ v ∈ range s.wy,
    if (u ≤ j + (s.wx - 1) / 2 ∧ j + (s.wx - 1) / 2 - u < nb) ∧
        (v ≤ k + (s.wy - 1) / 2 ∧ k + (s.wy - 1) / 2 - v < nc) then
      s.kernel u v * d (j + (s.wx - 1) / 2 - u) (k + (s.wy - 1) / 2 - v)
    else 0

/-- `threshold_factor`, `radar/detection.py` 612, for a number of training cells.  (`pfa = 0` yields
infinity in numpy and zero here, where it is excluded from the theorems.) -/
noncomputable def Cfar.factor (s : Cfar) (n : ℝ) : ℝ := s.pfa ^ (-1 / n) - 1

/-- Decision for one bin, `radar/detection.py` 605-615. -/
def Cfar.above (s : Cfar) (c : Cube ℝ) (p : Nat × Nat × Nat) : Prop :=
  |c.data p| > |s.convolve c.nb c.nc (fun j k => c.data (p.1, j, k)) p.2.1 p.2.2| *
    s.factor (s.convolve c.nb c.nc (fun _ _ => 1) p.2.1 p.2.2)

open Classical in
/-- Detected bins. -/
noncomputable def Cfar.idxs (s : Cfar) (c : Cube ℝ) : List (Nat × Nat × Nat) :=
  c.idxs.filter (fun p => decide (s.above c p))

/-- `CFARDetector.detect`, `radar/detection.py` 585-632. -/
noncomputable def Cfar.detect (s : Cfar) (t : Trig ℝ) (light : ℝ) (c : Cube ℝ) :
    Except PyErr (List (Point ℝ)) :=
  if c.nb < s.wx ∨ c.nc < s.wy then .error .value
  else match newCloud c with
    | .error e => .error e
    | .ok () => detections t light c (s.idxs c)

/-! ### Specification -/

/-- At most `h` apart. -/
def Near (h i j : Nat) : Prop := i ≤ j + h ∧ j ≤ i + h

/-- Cell `(j', k')` trains the threshold of cell `(j, k)`: it is in the window around it but not in the
inner window of guard cells. -/
def Training (s : Cfar) (j k j' k' : Nat) : Prop :=
  Near (s.t0 + s.g0) j j' ∧ Near (s.t1 + s.g1) k k' ∧ ¬ (Near s.g0 j j' ∧ Near s.g1 k k')

instance (h i j : Nat) : Decidable (Near h i j) := by unfold Near; infer_instance

instance (s : Cfar) (j k j' k' : Nat) : Decidable (Training s j k j' k') := by
  unfold Training; infer_instance

/-- Training cells of a cell in an array of size `nb` × `nc`. -/
def trainingCells (s : Cfar) (nb nc j k : Nat) : Finset (Nat × Nat) :=
  (range nb ×ˢ range nc).filter (fun q => Training s j k q.1 q.2)

/-- Convolution in one dimension, written over the cells of the array. -/
theorem reindex {M : Type} [AddCommMonoid M] (h n j : Nat) (g : Nat → Nat → M) :
    (∑ u ∈ range (2 * h + 1), if u ≤ j + h ∧ j + h - u < n then g u (j + h - u) else 0) =
      ∑ i ∈ range n, if Near h j i then g (j + h - i) i else 0 := by
  rw [← sum_filter, ← sum_filter]
  refine sum_nbij' (fun u => j + h - u) (fun i => j + h - i) ?_ ?_ ?_ ?_ ?_
  · intro u hu
    simp only [mem_filter, mem_range] at hu ⊢
    simp only [Near]
    omega
  · intro i hi
    simp only [mem_filter, mem_range] at hi ⊢
    simp only [Near] at hi
    omega
  · intro u hu
    simp only [mem_filter, mem_range] at hu
    omega
  · intro i hi
    simp only [mem_filter, mem_range] at hi
    simp only [Near] at hi
    omega
  · intro u hu
    simp only [mem_filter, mem_range] at hu
    have : j + h - (j + h - u) = u := by omega
    rw [this]

theorem convolve_eq (s : Cfar) (nb nc : Nat) (d : Nat → Nat → ℝ) (j k : Nat) :
    s.convolve nb nc d j k = ∑ q ∈ trainingCells s nb nc j k, d q.1 q.2 := by
  have hx : (s.wx - 1) / 2 = s.t0 + s.g0 := by unfold Cfar.wx; omega
  have hy : (s.wy - 1) / 2 = s.t1 + s.g1 := by unfold Cfar.wy; omega
  have wx : s.wx = 2 * (s.t0 + s.g0) + 1 := by unfold Cfar.wx; omega
  have wy : s.wy = 2 * (s.t1 + s.g1) + 1 := by unfold Cfar.wy; omega
  unfold Cfar.convolve
  rw [hx, hy, wx, wy]
  have step : ∀ u, (∑ v ∈ range (2 * (s.t1 + s.g1) + 1),
      if (u ≤ j + (s.t0 + s.g0) ∧ j + (s.t0 + s.g0) - u < nb) ∧
        (v ≤ k + (s.t1 + s.g1) ∧ k + (s.t1 + s.g1) - v < nc) then
        s.kernel u v * d (j + (s.t0 + s.g0) - u) (k + (s.t1 + s.g1) - v) else 0) =
      if u ≤ j + (s.t0 + s.g0) ∧ j + (s.t0 + s.g0) - u < nb then
        ∑ k' ∈ range nc, (if Near (s.t1 + s.g1) k k' then
          s.kernel u (k + (s.t1 + s.g1) - k') * d (j + (s.t0 + s.g0) - u) k' else 0) else 0 := by
    intro u
    split
    · rename_i h
      rw [← reindex (s.t1 + s.g1) nc k (fun v k' => s.kernel u v * d (j + (s.t0 + s.g0) - u) k')]
      refine sum_congr rfl (fun v _ => ?_)
      by_cases hv : v ≤ k + (s.t1 + s.g1) ∧ k + (s.t1 + s.g1) - v < nc
      · rw [if_pos ⟨h, hv⟩, if_pos hv]
      · rw [if_neg (fun hc => hv hc.2), if_neg hv]
    · rename_i h
      exact sum_eq_zero (fun v _ => if_neg (fun hc => h hc.1))
  rw [sum_congr rfl (fun u _ => step u)]
  rw [reindex (s.t0 + s.g0) nb j (fun u j' => ∑ k' ∈ range nc, (if Near (s.t1 + s.g1) k k' then
    s.kernel u (k + (s.t1 + s.g1) - k') * d j' k' else 0))]
  unfold trainingCells
  rw [sum_filter, sum_product]
  refine sum_congr rfl (fun j' _ => ?_)
  by_cases hj : Near (s.t0 + s.g0) j j'
  · rw [if_pos hj]
    refine sum_congr rfl (fun k' _ => ?_)
    by_cases hk : Near (s.t1 + s.g1) k k'
    · rw [if_pos hk]
      unfold Cfar.kernel
      have hcond : (s.t0 ≤ j + (s.t0 + s.g0) - j' ∧ j + (s.t0 + s.g0) - j' < s.wx - s.t0 ∧
          s.t1 ≤ k + (s.t1 + s.g1) - k' ∧ k + (s.t1 + s.g1) - k' < s.wy - s.t1) ↔
          (Near s.g0 j j' ∧ Near s.g1 k k') := by
        unfold Near at hj hk ⊢
        rw [wx, wy]
        omega
      by_cases hg : Near s.g0 j j' ∧ Near s.g1 k k'
      · rw [if_pos (hcond.mpr hg), zero_mul, if_neg]
        exact fun hc => hc.2.2 hg
      · rw [if_neg (fun hc => hg (hcond.mp hc)), one_mul, if_pos]
        exact ⟨hj, hk, hg⟩
    · rw [if_neg hk, if_neg (fun hc => hk hc.2.1)]
  · rw [if_neg hj]
    exact (sum_eq_zero (fun k' _ => if_neg (fun hc => hj hc.1))).symm

/-- If the window fits into the cube, every cell has training cells. -/
theorem trainingCells_nonempty (s : Cfar) (nb nc j k : Nat) (h0 : 0 < s.t0) (hb : s.wx ≤ nb) (hc : s.wy ≤ nc)
    (hj : j < nb) (hk : k < nc) : (trainingCells s nb nc j k).Nonempty := by
  unfold Cfar.wx at hb
  unfold Cfar.wy at hc
  by_cases h : j + s.g0 + 1 < nb
  · refine ⟨(j + s.g0 + 1, k), ?_⟩
    simp only [trainingCells, mem_filter, mem_product, mem_range]
    simp only [Training, Near]
    omega
  · refine ⟨(j - s.g0 - 1, k), ?_⟩
    simp only [trainingCells, mem_filter, mem_product, mem_range]
    simp only [Training, Near]
    omega

/-- **C51** (decision): for a cube at least as large as the window, the detector reports exactly the bins
whose power exceeds the sum of their training cells' powers times `pfa ^ (-1 / n) - 1`, `n` being the
number of their training cells, which is never zero: one point per such bin, in the bins' order, in the
bin's place. -/
theorem C51_decision (s : Cfar) (t : Trig ℝ) (light : ℝ) (c : Cube ℝ) (h : Good c) (ht : 0 < s.t0)
    (hp0 : 0 < s.pfa) (hp1 : s.pfa ≤ 1) (hb : s.wx ≤ c.nb) (hc : s.wy ≤ c.nc) :
    ∃ sel xs, s.detect t light c = .ok xs ∧ sel.Nodup ∧ sel.Sublist c.idxs ∧
      List.Forall₂ (InBin t light c) sel xs ∧
      ∀ i j k, (i, j, k) ∈ sel ↔ (i < c.na ∧ j < c.nb ∧ k < c.nc) ∧
        0 < (trainingCells s c.nb c.nc j k).card ∧
        (∑ q ∈ trainingCells s c.nb c.nc j k, c.data (i, q.1, q.2)) *
          (s.pfa ^ (-1 / ((trainingCells s c.nb c.nc j k).card : ℝ)) - 1) < c.data (i, j, k) := by
  classical
  have hfac : ∀ n : Nat, 0 ≤ s.pfa ^ (-1 / (n : ℝ)) - 1 := by
    intro n
    have : 1 ≤ s.pfa ^ (-1 / (n : ℝ)) := by
      apply Real.one_le_rpow_of_pos_of_le_one_of_nonpos hp0 hp1
      apply div_nonpos_of_nonpos_of_nonneg (by norm_num) (Nat.cast_nonneg n)
    linarith
  have habove : ∀ i j k, s.above c (i, j, k) ↔ (∑ q ∈ trainingCells s c.nb c.nc j k, c.data (i, q.1, q.2)) *
      (s.pfa ^ (-1 / ((trainingCells s c.nb c.nc j k).card : ℝ)) - 1) < c.data (i, j, k) := by
    intro i j k
    unfold Cfar.above Cfar.factor
    dsimp only
    rw [convolve_eq, convolve_eq, sum_const, nsmul_eq_mul, mul_one, abs_of_nonneg (h.data _),
      abs_of_nonneg (sum_nonneg (fun q _ => h.data _))]
  have hmem : ∀ i j k, (i, j, k) ∈ s.idxs c ↔ (i < c.na ∧ j < c.nb ∧ k < c.nc) ∧
        0 < (trainingCells s c.nb c.nc j k).card ∧
        (∑ q ∈ trainingCells s c.nb c.nc j k, c.data (i, q.1, q.2)) *
          (s.pfa ^ (-1 / ((trainingCells s c.nb c.nc j k).card : ℝ)) - 1) < c.data (i, j, k) := by
    intro i j k
    unfold Cfar.idxs
    rw [List.mem_filter, decide_eq_true_eq, habove, mem_idxs]
    constructor
    · rintro ⟨a, b⟩
      exact ⟨a, card_pos.mpr (trainingCells_nonempty s _ _ _ _ ht hb hc a.2.1 a.2.2), b⟩
    · rintro ⟨a, _, b⟩
      exact ⟨a, b⟩
  have hsub : (s.idxs c).Sublist c.idxs := List.filter_sublist
  obtain ⟨xs, e, b⟩ := detections_ok t light c h (s.idxs c) (by
    rintro ⟨i, j, k⟩ hp
    obtain ⟨a, _, d⟩ := (hmem i j k).mp hp
    refine ⟨(mem_idxs _ _ _ _).mpr a, lt_of_le_of_lt ?_ d⟩
    exact mul_nonneg (sum_nonneg (fun q _ => h.data _)) (hfac _))
  refine ⟨_, xs, ?_, (idxs_nodup c).sublist hsub, hsub, b, hmem⟩
  unfold Cfar.detect
  rw [if_neg (by omega), newCloud_ok c h]
  exact e

/-- **C51** (constant false alarm rate): multiplying all powers of a cube by a positive number does not
change which bins are reported. -/
theorem C51_scale_invariant (s : Cfar) (c : Cube ℝ) (a : ℝ) (ha : 0 < a) :
    s.idxs { c with data := fun p => a * c.data p } = s.idxs c := by
  classical
  unfold Cfar.idxs
  have : Cube.idxs { c with data := fun p => a * c.data p } = c.idxs := rfl
  rw [this]
  refine List.filter_congr (fun p _ => ?_)
  have : s.above { c with data := fun p => a * c.data p } p ↔ s.above c p := by
    unfold Cfar.above
    dsimp only
    rw [convolve_eq s c.nb c.nc (fun j k => a * c.data (p.1, j, k)), ← mul_sum, ← convolve_eq s c.nb c.nc
      (fun j k => c.data (p.1, j, k)), abs_mul, abs_mul, abs_of_pos ha, mul_assoc, gt_iff_lt, gt_iff_lt,
      mul_lt_mul_iff_right₀ ha]
  exact decide_eq_decide.mpr this

/-- **C51** (small cubes): a cube smaller than the window in Doppler or range is refused. -/
theorem C51_small (s : Cfar) (t : Trig ℝ) (light : ℝ) (c : Cube ℝ) (h : c.nb < s.wx ∨ c.nc < s.wy) :
    s.detect t light c = .error .value := by
  unfold Cfar.detect
  rw [if_pos h]

/-- **C51** (settings): the constructor accepts exactly positive numbers of training cells, non-negative
numbers of guard cells and probabilities. -/
theorem C51_settings (t0 t1 g0 g1 : Int) (pfa : ℝ) :
    (mkCfar t0 t1 g0 g1 pfa).isSome ↔ 0 < t0 ∧ 0 < t1 ∧ 0 ≤ g0 ∧ 0 ≤ g1 ∧ 0 ≤ pfa ∧ pfa ≤ 1 := by
  classical
  unfold mkCfar
  constructor
  · intro h
    split at h
    · cases h
    split at h
    · cases h
    split at h
    · cases h
    rename_i h1 h2 h3
    push Not at h1 h2 h3
    exact ⟨h1.1, h1.2, h2.1, h2.2, h3.1, h3.2⟩
  · rintro ⟨a, b, c, d, e, f⟩
    rw [if_neg (by omega), if_neg (by omega), if_neg (by push Not; exact ⟨e, f⟩)]
    rfl

/-- The neighbourhood of a cell on the border: window of one training and one guard cell. -/
example : trainingCells ⟨1, 1, 1, 1, 0.1⟩ 5 6 0 1 =
    {(2, 0), (2, 1), (2, 2), (2, 3), (0, 3), (1, 3)} := by decide +kernel

end Verif.Radar
