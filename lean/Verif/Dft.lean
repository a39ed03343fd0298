import Mathlib.RingTheory.RootsOfUnity.Complex
import Mathlib.Analysis.Complex.Basic
import Mathlib.Algebra.BigOperators.Field
import Mathlib.Analysis.SpecialFunctions.Pow.Real
import Mathlib.Tactic.FieldSimp

/-!
# Discrete Fourier transform as numpy defines it

`numpy.fft.fft` / `numpy.fft.ifft` are taken as their documented mathematical definition.
-/

namespace Verif.Dft

open Complex Finset

/-- Normalisation of `numpy.fft`. -/
inductive Norm | backward | ortho | forward
  deriving DecidableEq, Repr

/-- Factor applied by `fft` for a normalisation. -/
noncomputable def Norm.fwd (n : Nat) : Norm → ℂ
  | .backward => 1
  | .ortho => 1 / ((Real.sqrt n : ℝ) : ℂ)
  | .forward => 1 / (n : ℂ)

/-- Factor applied by `ifft` for a normalisation. -/
noncomputable def Norm.bwd (n : Nat) : Norm → ℂ
  | .backward => 1 / (n : ℂ)
  | .ortho => 1 / ((Real.sqrt n : ℝ) : ℂ)
  | .forward => 1

/-- `numpy.fft.fft(x, norm=...)` of `n` samples. -/
noncomputable def fft (norm : Norm) (n : Nat) (x : Nat → ℂ) (m : Nat) : ℂ :=
  norm.fwd n * ∑ j ∈ range n, x j * exp (-(2 * Real.pi * I * m * j / n))

/-- `numpy.fft.ifft(x, norm=...)` of `n` samples. -/
noncomputable def ifft (norm : Norm) (n : Nat) (x : Nat → ℂ) (m : Nat) : ℂ :=
  norm.bwd n * ∑ j ∈ range n, x j * exp (2 * Real.pi * I * m * j / n)

theorem fwd_bwd (n : Nat) (hn : 0 < n) (norm : Norm) : norm.fwd n * norm.bwd n = 1 / (n : ℂ) := by
  cases norm with
  | backward => simp [Norm.fwd, Norm.bwd]
  | forward => simp [Norm.fwd, Norm.bwd]
  | ortho =>
    simp only [Norm.fwd, Norm.bwd]
    rw [div_mul_div_comm, one_mul, ← Complex.ofReal_mul, Real.mul_self_sqrt (by positivity)]
    simp

/-- Orthogonality of the complex exponentials. -/
theorem exp_orthogonal (n : Nat) (hn : 0 < n) (a b : Nat) (ha : a < n) (hb : b < n) :
    ∑ m ∈ range n, exp (2 * Real.pi * I * m * a / n) * exp (-(2 * Real.pi * I * m * b / n)) =
      if a = b then (n : ℂ) else 0 := by
  have hn0 : (n : ℂ) ≠ 0 := by exact_mod_cast hn.ne'
  split
  · rename_i h
    subst h
    have : ∀ m ∈ range n, exp (2 * Real.pi * I * m * a / n) *
        exp (-(2 * Real.pi * I * m * a / n)) = 1 := by
      intro m _
      rw [← Complex.exp_add, add_neg_cancel, Complex.exp_zero]
    rw [Finset.sum_congr rfl this]
    simp
  · rename_i h
    let z : ℂ := exp (2 * Real.pi * I * ((a : ℂ) - b) / n)
    have hterm : ∀ m ∈ range n, exp (2 * Real.pi * I * m * a / n) *
        exp (-(2 * Real.pi * I * m * b / n)) = z ^ m := by
      intro m _
      rw [← Complex.exp_add, ← Complex.exp_nat_mul]
      congr 1
      field_simp
      ring
    rw [Finset.sum_congr rfl hterm]
    have hz : z ≠ 1 := by
      intro hz
      rw [Complex.exp_eq_one_iff] at hz
      obtain ⟨k, hk⟩ := hz
      have h2 : (2 * Real.pi * I : ℂ) ≠ 0 := by
        simp [Real.pi_ne_zero]
      have h3 : ((a : ℂ) - b) = k * n := by
        field_simp at hk
        rw [hk, mul_comm]
      have h4 : ((a : ℤ) - b) = k * n := by exact_mod_cast h3
      have h5 : k = 0 := by
        by_contra hk0
        rcases lt_or_gt_of_ne hk0 with hlt | hgt
        · have : k * (n : ℤ) ≤ -1 * n := by
            apply mul_le_mul_of_nonneg_right <;> omega
          omega
        · have : 1 * (n : ℤ) ≤ k * n := by
            apply mul_le_mul_of_nonneg_right <;> omega
          omega
      rw [h5] at h4
      omega
    have hzn : z ^ n = 1 := by
      rw [← Complex.exp_nat_mul, Complex.exp_eq_one_iff]
      refine ⟨(a : ℤ) - b, ?_⟩
      push_cast
      field_simp
    rw [geom_sum_eq hz, hzn, sub_self, zero_div]

/-- Inversion: `ifft(fft(x)) = x` on the window, for every normalisation. -/
theorem ifft_fft (norm : Norm) (n : Nat) (x : Nat → ℂ) (a : Nat) (ha : a < n) :
    ifft norm n (fft norm n x) a = x a := by
  have hn : 0 < n := by omega
  have hn0 : (n : ℂ) ≠ 0 := by exact_mod_cast hn.ne'
  unfold ifft fft
  have h1 : ∀ m ∈ range n, (norm.fwd n * ∑ j ∈ range n, x j * exp (-(2 * Real.pi * I * m * j / n))) *
      exp (2 * Real.pi * I * a * m / n) =
      norm.fwd n * ∑ j ∈ range n, x j *
        (exp (2 * Real.pi * I * m * a / n) * exp (-(2 * Real.pi * I * m * j / n))) := by
    intro m _
    rw [mul_assoc, Finset.sum_mul]
    congr 1
    refine Finset.sum_congr rfl fun j _ => ?_
    rw [show (2 * Real.pi * I * a * m / n : ℂ) = 2 * Real.pi * I * m * a / n by ring]
    ring
  rw [Finset.sum_congr rfl h1, ← Finset.mul_sum, Finset.sum_comm]
  have h2 : ∀ j ∈ range n, ∑ m ∈ range n, x j *
      (exp (2 * Real.pi * I * m * a / n) * exp (-(2 * Real.pi * I * m * j / n))) =
      if a = j then x j * n else 0 := by
    intro j hj
    rw [← Finset.mul_sum, exp_orthogonal n hn a j ha (Finset.mem_range.mp hj)]
    split <;> simp
  rw [Finset.sum_congr rfl h2, Finset.sum_ite_eq, if_pos (Finset.mem_range.mpr ha), ← mul_assoc,
    mul_comm (norm.bwd n), fwd_bwd n hn norm]
  field_simp

/-- `fft` is linear. -/
theorem fft_linear (norm : Norm) (n : Nat) (c : ℂ) (x y : Nat → ℂ) (m : Nat) :
    fft norm n (fun j => c * x j + y j) m = c * fft norm n x m + fft norm n y m := by
  unfold fft
  have : ∀ j ∈ range n, (c * x j + y j) * exp (-(2 * Real.pi * I * m * j / n)) =
      c * (x j * exp (-(2 * Real.pi * I * m * j / n))) + y j * exp (-(2 * Real.pi * I * m * j / n)) := by
    intro j _; ring
  rw [Finset.sum_congr rfl this, Finset.sum_add_distrib, ← Finset.mul_sum]
  ring

/-- `ifft` is linear. -/
theorem ifft_linear (norm : Norm) (n : Nat) (c : ℂ) (x y : Nat → ℂ) (m : Nat) :
    ifft norm n (fun j => c * x j + y j) m = c * ifft norm n x m + ifft norm n y m := by
  unfold ifft
  have : ∀ j ∈ range n, (c * x j + y j) * exp (2 * Real.pi * I * m * j / n) =
      c * (x j * exp (2 * Real.pi * I * m * j / n)) + y j * exp (2 * Real.pi * I * m * j / n) := by
    intro j _; ring
  rw [Finset.sum_congr rfl this, Finset.sum_add_distrib, ← Finset.mul_sum]
  ring

theorem ifft_congr (norm : Norm) (n : Nat) (x y : Nat → ℂ) (m : Nat)
    (h : ∀ j < n, x j = y j) : ifft norm n x m = ifft norm n y m := by
  unfold ifft
  congr 1
  refine Finset.sum_congr rfl fun j hj => ?_
  rw [h j (Finset.mem_range.mp hj)]

/-- Inversion in the other direction: `fft(ifft(x)) = x`. -/
theorem fft_ifft (norm : Norm) (n : Nat) (x : Nat → ℂ) (a : Nat) (ha : a < n) :
    fft norm n (ifft norm n x) a = x a := by
  have hn : 0 < n := by omega
  have hn0 : (n : ℂ) ≠ 0 := by exact_mod_cast hn.ne'
  unfold ifft fft
  have h1 : ∀ m ∈ range n, (norm.bwd n * ∑ j ∈ range n, x j * exp (2 * Real.pi * I * m * j / n)) *
      exp (-(2 * Real.pi * I * a * m / n)) =
      norm.bwd n * ∑ j ∈ range n, x j *
        (exp (2 * Real.pi * I * m * j / n) * exp (-(2 * Real.pi * I * m * a / n))) := by
    intro m _
    rw [mul_assoc, Finset.sum_mul]
    congr 1
    refine Finset.sum_congr rfl fun j _ => ?_
    rw [show (2 * Real.pi * I * a * m / n : ℂ) = 2 * Real.pi * I * m * a / n by ring]
    ring
  rw [Finset.sum_congr rfl h1, ← Finset.mul_sum, Finset.sum_comm]
  have h2 : ∀ j ∈ range n, ∑ m ∈ range n, x j *
      (exp (2 * Real.pi * I * m * j / n) * exp (-(2 * Real.pi * I * m * a / n))) =
      if j = a then x j * n else 0 := by
    intro j hj
    rw [← Finset.mul_sum, exp_orthogonal n hn j a (Finset.mem_range.mp hj) ha]
    split <;> simp
  rw [Finset.sum_congr rfl h2, Finset.sum_ite_eq', if_pos (Finset.mem_range.mpr ha), ← mul_assoc,
    fwd_bwd n hn norm]
  field_simp

end Verif.Dft
