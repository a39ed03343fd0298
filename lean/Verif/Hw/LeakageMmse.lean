import Verif.Hw.Leakage
import Mathlib.Analysis.Matrix.PosDef
import Mathlib.Analysis.Matrix.Spectrum
import Mathlib.LinearAlgebra.Matrix.Rank

/-!
# C143: leakage calibrations by minimum mean square errors

Model of `SelectiveLeakageCalibration.MMSEEstimate`, `hermespy/hardware_loop/calibration/leakage.py` 446-551, on the probes of
C110.  Numbers are exact, and the singular value decomposition of numpy is an oracle which returns one.
-/

namespace Verif.HwLeakageMmse

open Verif (PyErr)
open Verif.HwLeakage (Calibration new sentSpectrum receivedSpectrum leastSquares estimate leaky spectrum_ne_zero)
open Verif.Dft (Norm fft ifft fft_ifft ifft_fft ifft_linear)
open Matrix
open scoped BigOperators ComplexOrder

noncomputable section

/-! ## The estimator -/

/-- Rows of the system: all samples of the first probe, then of the second, lines 513-515. -/
abbrev Row (P N : ℕ) := Fin P × Fin N

/-- Singular values are counted from the greatest. -/
abbrev Idx (P N : ℕ) := Fin (Fintype.card (Row P N))

/-- What `numpy.linalg.svd` returns of square matrices; `v` is the conjugate transpose of its third result. -/
structure Svd (P N : ℕ) where
  u : Matrix (Row P N) (Idx P N) ℂ
  s : Idx P N → ℝ
  v : Matrix (Row P N) (Idx P N) ℂ

/-- A singular value decomposition: unitary factors, and singular values in descending order. -/
structure IsSvd {P N : ℕ} (A : Matrix (Row P N) (Row P N) ℂ) (d : Svd P N) : Prop where
  u_left : d.uᴴ * d.u = 1
  u_right : d.u * d.uᴴ = 1
  v_left : d.vᴴ * d.v = 1
  v_right : d.v * d.vᴴ = 1
  nonneg : ∀ i, 0 ≤ d.s i
  sorted : Antitone d.s
  eq : A = d.u * diagonal (fun i => (d.s i : ℂ)) * d.vᴴ

/-- `h`, lines 513-515: the spectra of the probes as diagonal matrices, one below the other. -/
def system {P N : ℕ} (F : Fin P → Fin N → ℂ) : Matrix (Row P N) (Fin N) ℂ := fun r k => if r.2 = k then F r.1 k else 0

/-- The covariance of receptions, lines 522-523. -/
def loaded {P N : ℕ} (F : Fin P → Fin N → ℂ) (σ : ℝ) : Matrix (Row P N) (Row P N) ℂ :=
  system F * (system F)ᴴ + (σ : ℂ) • (1 : Matrix (Row P N) (Row P N) ℂ)

/-- `mmse_estimator`, lines 521-531: only as many singular values are considered as there are samples, here by zeros in place of
the inverses of the others.  Singular values of zero are divided by in numpy; by `selected_pos` there are none. -/
def estimator {P N : ℕ} (svd : Matrix (Row P N) (Row P N) ℂ → Svd P N) (F : Fin P → Fin N → ℂ) (σ : ℝ) :
    Matrix (Fin N) (Row P N) ℂ :=
  let d := svd (loaded F σ)
  (system F)ᴴ * d.v * diagonal (fun i : Idx P N => if i.val < N then (1 / d.s i : ℂ) else 0) * d.uᴴ

/-- Power of all probes at a frequency. -/
def energy {P N : ℕ} (F : Fin P → Fin N → ℂ) (k : Fin N) : ℝ := ∑ p, Complex.normSq (F p k)

theorem gram_diag {P N : ℕ} {R : Type} [Fintype R] (B : Matrix R (Idx P N) ℂ) (i : Idx P N) :
    (Bᴴ * B) i i = ((∑ r, Complex.normSq (B r i) : ℝ) : ℂ) := by
  rw [Matrix.mul_apply]
  push_cast
  refine Finset.sum_congr rfl fun r _ => ?_
  rw [Matrix.conjTranspose_apply, mul_comm, Complex.star_def, Complex.mul_conj]

theorem system_gram {P N : ℕ} (F : Fin P → Fin N → ℂ) :
    (system F)ᴴ * system F = diagonal fun k => (energy F k : ℂ) := by
  ext k l
  rw [Matrix.mul_apply, Matrix.diagonal_apply, Fintype.sum_prod_type]
  simp only [Matrix.conjTranspose_apply, system]
  by_cases h : k = l
  · subst h
    rw [if_pos rfl]
    unfold energy
    push_cast
    refine Finset.sum_congr rfl fun p _ => ?_
    rw [Finset.sum_eq_single k]
    · rw [if_pos rfl, mul_comm, Complex.star_def, Complex.mul_conj]
    · intro b _ hb; simp [hb]
    · simp
  · rw [if_neg h]
    refine Finset.sum_eq_zero fun p _ => Finset.sum_eq_zero fun q _ => ?_
    by_cases h1 : q = k
    · subst h1; simp [h]
    · simp [h1]

theorem loaded_posSemidef {P N : ℕ} (F : Fin P → Fin N → ℂ) (σ : ℝ) (hσ : 0 ≤ σ) : (loaded F σ).PosSemidef := by
  unfold loaded
  refine (posSemidef_self_mul_conjTranspose _).add ?_
  exact PosSemidef.one.smul (by exact_mod_cast hσ)

theorem loaded_hermitian {P N : ℕ} (F : Fin P → Fin N → ℂ) (σ : ℝ) : (loaded F σ)ᴴ = loaded F σ := by
  simp [loaded, conjTranspose_add, conjTranspose_mul, conjTranspose_smul]

theorem system_loaded {P N : ℕ} (F : Fin P → Fin N → ℂ) (σ : ℝ) :
    (system F)ᴴ * loaded F σ = diagonal (fun k => ((energy F k + σ : ℝ) : ℂ)) * (system F)ᴴ := by
  have e : diagonal (fun k => ((energy F k + σ : ℝ) : ℂ)) =
      diagonal (fun k => (energy F k : ℂ)) + (σ : ℂ) • (1 : Matrix (Fin N) (Fin N) ℂ) := by
    ext k l
    by_cases h : k = l
    · subst h; simp
    · simp [h]
  rw [e, ← system_gram, loaded, Matrix.mul_add, Matrix.add_mul, Matrix.mul_assoc]
  simp

section
variable {P N : ℕ} (F : Fin P → Fin N → ℂ) (σ : ℝ) (hσ : 0 ≤ σ) (d : Svd P N) (hd : IsSvd (loaded F σ) d)
include hσ hd

/-- Left and right singular vectors agree where singular values are positive. -/
theorem vectors_eq (i : Idx P N) (hi : 0 < d.s i) (r : Row P N) : d.u r i = d.v r i := by
  set S := diagonal (fun i => (d.s i : ℂ)) with hS
  have hSH : Sᴴ = S := by
    rw [hS, Matrix.diagonal_conjTranspose]
    congr 1
    funext i
    simp
  have hv : loaded F σ * d.v = d.u * S := by
    rw [hd.eq, Matrix.mul_assoc, hd.v_left, Matrix.mul_one]
  have hu : loaded F σ * d.u = d.v * S := by
    have h1 : loaded F σ = d.v * S * d.uᴴ := by
      rw [← loaded_hermitian, hd.eq, ← hS]
      simp only [conjTranspose_mul, conjTranspose_conjTranspose, hSH, Matrix.mul_assoc]
    rw [h1, Matrix.mul_assoc, hd.u_left, Matrix.mul_one]
  have hD : loaded F σ * (d.u - d.v) = -((d.u - d.v) * S) := by
    rw [Matrix.mul_sub, hu, hv, Matrix.sub_mul]
    abel
  have key : ((d.u - d.v)ᴴ * (loaded F σ * (d.u - d.v))) i i =
      -(((d.u - d.v)ᴴ * (d.u - d.v)) i i * (d.s i : ℂ)) := by
    rw [hD, Matrix.mul_neg, Matrix.neg_apply, ← Matrix.mul_assoc, hS, Matrix.mul_diagonal]
  have hpos := (loaded_posSemidef F σ hσ).conjTranspose_mul_mul_same (d.u - d.v)
  have hii := hpos.diag_nonneg (i := i)
  rw [Matrix.mul_assoc, key, gram_diag] at hii
  have h2 : 0 ≤ -((∑ r, Complex.normSq ((d.u - d.v) r i)) * d.s i) := by exact_mod_cast hii
  have h3 : 0 ≤ ∑ r, Complex.normSq ((d.u - d.v) r i) := Finset.sum_nonneg fun r _ => Complex.normSq_nonneg _
  have h4 : ∑ r, Complex.normSq ((d.u - d.v) r i) = 0 := by nlinarith
  have h5 := (Finset.sum_eq_zero_iff_of_nonneg fun r _ => Complex.normSq_nonneg _).mp h4 r (Finset.mem_univ _)
  rw [Complex.normSq_eq_zero, Matrix.sub_apply, sub_eq_zero] at h5
  exact h5

theorem loaded_vectors : loaded F σ * d.v = d.v * diagonal (fun i => (d.s i : ℂ)) := by
  have hv : loaded F σ * d.v = d.u * diagonal (fun i => (d.s i : ℂ)) := by
    rw [hd.eq, Matrix.mul_assoc, hd.v_left, Matrix.mul_one]
  rw [hv]
  ext r i
  rw [Matrix.mul_diagonal, Matrix.mul_diagonal]
  rcases (hd.nonneg i).eq_or_lt with h | h
  · rw [← h]; simp
  · rw [vectors_eq F σ hσ d hd i h r]

/-- The right singular vectors seen by the system. -/
theorem seen_gram : ((system F)ᴴ * d.v)ᴴ * ((system F)ᴴ * d.v) = diagonal fun i => ((d.s i - σ : ℝ) : ℂ) := by
  have h1 : system F * (system F)ᴴ = loaded F σ - (σ : ℂ) • (1 : Matrix (Row P N) (Row P N) ℂ) := by simp [loaded]
  rw [conjTranspose_mul, conjTranspose_conjTranspose, Matrix.mul_assoc, ← Matrix.mul_assoc (system F), h1, Matrix.sub_mul,
    loaded_vectors F σ hσ d hd, Matrix.mul_sub, ← Matrix.mul_assoc, hd.v_left, Matrix.one_mul, Matrix.smul_mul,
    Matrix.one_mul, Matrix.mul_smul, hd.v_left]
  ext i j
  by_cases h : i = j
  · subst h; simp
  · simp [h]

theorem seen_scaled (k : Fin N) (i : Idx P N) :
    ((system F)ᴴ * d.v) k i * (d.s i : ℂ) = ((energy F k + σ : ℝ) : ℂ) * ((system F)ᴴ * d.v) k i := by
  have h : (system F)ᴴ * d.v * diagonal (fun i => (d.s i : ℂ)) =
      diagonal (fun k => ((energy F k + σ : ℝ) : ℂ)) * ((system F)ᴴ * d.v) := by
    rw [Matrix.mul_assoc, ← loaded_vectors F σ hσ d hd, ← Matrix.mul_assoc, system_loaded, Matrix.mul_assoc]
  have := congrFun (congrFun h k) i
  rwa [Matrix.mul_diagonal, Matrix.diagonal_mul] at this

theorem seen_norm (i : Idx P N) : ∑ k, Complex.normSq (((system F)ᴴ * d.v) k i) = d.s i - σ := by
  have h := gram_diag ((system F)ᴴ * d.v) i
  rw [seen_gram F σ hσ d hd, Matrix.diagonal_apply_eq] at h
  exact_mod_cast h.symm

/-- Beyond the number of samples there is nothing but noise. -/
theorem rest_small (i : Idx P N) (hi : N ≤ i.val) (k : Fin N) : ((system F)ᴴ * d.v) k i = 0 := by
  have hle : d.s i ≤ σ := by
    by_contra hc
    push Not at hc
    have hcard : N + 1 ≤ Fintype.card (Row P N) := by have := i.isLt; omega
    let e : Fin (N + 1) → Idx P N := Fin.castLE hcard
    have he : Function.Injective e := Fin.castLE_injective hcard
    have hgram : (((system F)ᴴ * d.v).submatrix id e)ᴴ * ((system F)ᴴ * d.v).submatrix id e =
        diagonal fun a => ((d.s (e a) - σ : ℝ) : ℂ) := by
      ext a b
      have := congrFun (congrFun (seen_gram F σ hσ d hd) (e a)) (e b)
      rw [Matrix.mul_apply, Matrix.diagonal_apply] at this
      rw [Matrix.mul_apply, Matrix.diagonal_apply]
      simp only [he.eq_iff] at this
      exact this
    have hunit : IsUnit (diagonal fun a : Fin (N + 1) => ((d.s (e a) - σ : ℝ) : ℂ)) := by
      rw [Matrix.isUnit_iff_isUnit_det, Matrix.det_diagonal, isUnit_iff_ne_zero, Finset.prod_ne_zero_iff]
      intro a _
      have : d.s i ≤ d.s (e a) := hd.sorted (by
        show (e a).val ≤ i.val
        have := a.isLt
        simp only [e, Fin.val_castLE]
        omega)
      exact_mod_cast (by linarith : (0:ℝ) < d.s (e a) - σ).ne'
    have h1 := rank_of_isUnit _ hunit
    rw [Fintype.card_fin, ← hgram] at h1
    have h2 := rank_mul_le_right (((system F)ᴴ * d.v).submatrix id e)ᴴ (((system F)ᴴ * d.v).submatrix id e)
    have h3 := rank_le_height (((system F)ᴴ * d.v).submatrix id e)
    omega
  have h0 := seen_norm F σ hσ d hd i
  have h1 : 0 ≤ ∑ k, Complex.normSq (((system F)ᴴ * d.v) k i) := Finset.sum_nonneg fun _ _ => Complex.normSq_nonneg _
  have h2 : ∑ k, Complex.normSq (((system F)ᴴ * d.v) k i) = 0 := by linarith
  exact Complex.normSq_eq_zero.mp
    ((Finset.sum_eq_zero_iff_of_nonneg fun _ _ => Complex.normSq_nonneg _).mp h2 k (Finset.mem_univ _))

/-- The singular values divided by are positive. -/
theorem selected_pos (hE : ∀ k, 0 < energy F k + σ) (i : Idx P N) (hi : i.val < N) : 0 < d.s i := by
  by_contra hc
  have hs0 : d.s i = 0 := le_antisymm (not_lt.mp hc) (hd.nonneg i)
  have hn0 := seen_norm F σ hσ d hd i
  have hn1 : 0 ≤ ∑ k, Complex.normSq (((system F)ᴴ * d.v) k i) := Finset.sum_nonneg fun _ _ => Complex.normSq_nonneg _
  have hσ0 : σ = 0 := by linarith
  have hz : ∀ j : Idx P N, i.val ≤ j.val → ∀ k, ((system F)ᴴ * d.v) k j = 0 := by
    intro j hj k
    have h1 : d.s j ≤ d.s i := hd.sorted hj
    have h2 := seen_norm F σ hσ d hd j
    have h3 : 0 ≤ ∑ k, Complex.normSq (((system F)ᴴ * d.v) k j) := Finset.sum_nonneg fun _ _ => Complex.normSq_nonneg _
    have h4 : ∑ k, Complex.normSq (((system F)ᴴ * d.v) k j) = 0 := by linarith
    exact Complex.normSq_eq_zero.mp
      ((Finset.sum_eq_zero_iff_of_nonneg fun _ _ => Complex.normSq_nonneg _).mp h4 k (Finset.mem_univ _))
  let W : Matrix (Fin N) (Fin i.val) ℂ := fun k a => ((system F)ᴴ * d.v) k ⟨a.val, a.isLt.trans i.isLt⟩
  let R : Matrix (Fin i.val) (Idx P N) ℂ := fun a j => if a.val = j.val then 1 else 0
  have hWR : (system F)ᴴ * d.v = W * R := by
    ext k j
    rw [Matrix.mul_apply (M := W)]
    by_cases hj : j.val < i.val
    · rw [Finset.sum_eq_single (⟨j.val, hj⟩ : Fin i.val)]
      · simp [W, R]
      · intro a _ ha
        have : a.val ≠ j.val := fun h => ha (Fin.ext h)
        simp [R, this]
      · simp
    · rw [hz j (by omega) k]
      refine (Finset.sum_eq_zero fun a _ => ?_).symm
      have : a.val ≠ j.val := by have := a.isLt; omega
      simp [R, this]
  have hE' : diagonal (fun k => (energy F k : ℂ)) = W * (R * (d.vᴴ * system F)) := by
    rw [← Matrix.mul_assoc, ← hWR, Matrix.mul_assoc, ← Matrix.mul_assoc d.v, hd.v_right, Matrix.one_mul, system_gram]
  have hunit : IsUnit (diagonal fun k => (energy F k : ℂ)) := by
    rw [Matrix.isUnit_iff_isUnit_det, Matrix.det_diagonal, isUnit_iff_ne_zero, Finset.prod_ne_zero_iff]
    intro k _
    have := hE k
    rw [hσ0, add_zero] at this
    exact_mod_cast this.ne'
  have h1 := rank_of_isUnit _ hunit
  rw [Fintype.card_fin, hE'] at h1
  have h2 := rank_mul_le_left W (R * (d.vᴴ * system F))
  have h3 := rank_le_width W
  omega

end

/-- C143: however the singular vectors are chosen, the estimator weighs the receptions of all probes at a frequency by the
conjugate of what was sent there, over the power sent plus the noise power; singular values left out do not matter, and those
divided by are positive. -/
theorem C143_estimator {P N : ℕ} (svd : Matrix (Row P N) (Row P N) ℂ → Svd P N)
    (hsvd : ∀ A, A.PosSemidef → IsSvd A (svd A)) (F : Fin P → Fin N → ℂ) (σ : ℝ) (hσ : 0 ≤ σ)
    (hE : ∀ k, 0 < energy F k + σ) :
    (∀ i : Idx P N, i.val < N → 0 < (svd (loaded F σ)).s i) ∧
    ∀ k r, estimator svd F σ k r = if r.2 = k then star (F r.1 k) / ((energy F k + σ : ℝ) : ℂ) else 0 := by
  have hd := hsvd _ (loaded_posSemidef F σ hσ)
  set d := svd (loaded F σ) with hdd
  refine ⟨fun i hi => selected_pos F σ hσ d hd hE i hi, fun k r => ?_⟩
  have hek : ((energy F k + σ : ℝ) : ℂ) ≠ 0 := by exact_mod_cast (hE k).ne'
  have h1 : estimator svd F σ k r = ∑ i, ((system F)ᴴ * d.v) k i / ((energy F k + σ : ℝ) : ℂ) * star (d.v r i) := by
    unfold estimator
    simp only [← hdd]
    rw [Matrix.mul_apply]
    refine Finset.sum_congr rfl fun i _ => ?_
    rw [Matrix.mul_diagonal, Matrix.conjTranspose_apply]
    by_cases hi : i.val < N
    · have hs := selected_pos F σ hσ d hd hE i hi
      have hsc : (d.s i : ℂ) ≠ 0 := by exact_mod_cast hs.ne'
      rw [if_pos hi, vectors_eq F σ hσ d hd i hs r]
      congr 1
      rw [mul_one_div, div_eq_div_iff hsc hek, mul_comm _ ((energy F k + σ : ℝ) : ℂ)]
      exact (seen_scaled F σ hσ d hd k i).symm
    · rw [rest_small F σ hσ d hd i (by omega) k]
      simp
  have h2 : ∑ i, ((system F)ᴴ * d.v) k i * star (d.v r i) = ((system F)ᴴ) k r := by
    have h3 : (system F)ᴴ * d.v * d.vᴴ = (system F)ᴴ := by rw [Matrix.mul_assoc, hd.v_right, Matrix.mul_one]
    have := congrFun (congrFun h3 k) r
    rw [Matrix.mul_apply] at this
    simpa [Matrix.conjTranspose_apply] using this
  rw [h1]
  have h4 : ∀ i, ((system F)ᴴ * d.v) k i / ((energy F k + σ : ℝ) : ℂ) * star (d.v r i) =
      ((system F)ᴴ * d.v) k i * star (d.v r i) / ((energy F k + σ : ℝ) : ℂ) := fun i => by ring
  rw [Finset.sum_congr rfl fun i _ => h4 i, ← Finset.sum_div, h2, Matrix.conjTranspose_apply, system]
  by_cases h : r.2 = k
  · rw [if_pos h, if_pos h]
  · rw [if_neg h, if_neg h]; simp

/-- Positive semidefinite matrices have singular value decompositions: a choice of one for each. -/
def spectralSvd (P N : ℕ) (A : Matrix (Row P N) (Row P N) ℂ) : Svd P N :=
  open Classical in
  if h : A.PosSemidef then
    let e : Idx P N ≃ Row P N := Fintype.equivOfCardEq (Fintype.card_fin _)
    let u := (h.1.eigenvectorUnitary : Matrix (Row P N) (Row P N) ℂ).submatrix id e
    ⟨u, h.1.eigenvalues₀, u⟩
  else ⟨0, 0, 0⟩

theorem spectralSvd_isSvd (P N : ℕ) (A : Matrix (Row P N) (Row P N) ℂ) (h : A.PosSemidef) : IsSvd A (spectralSvd P N A) := by
  unfold spectralSvd
  rw [dif_pos h]
  dsimp only
  set e : Idx P N ≃ Row P N := Fintype.equivOfCardEq (Fintype.card_fin _) with he
  have h1 : (h.1.eigenvectorUnitary : Matrix (Row P N) (Row P N) ℂ)ᴴ * (h.1.eigenvectorUnitary : Matrix (Row P N) (Row P N) ℂ) = 1 :=
    Unitary.coe_star_mul_self h.1.eigenvectorUnitary
  have h2 : (h.1.eigenvectorUnitary : Matrix (Row P N) (Row P N) ℂ) * (h.1.eigenvectorUnitary : Matrix (Row P N) (Row P N) ℂ)ᴴ = 1 :=
    Unitary.coe_mul_star_self h.1.eigenvectorUnitary
  have hl : ((h.1.eigenvectorUnitary : Matrix (Row P N) (Row P N) ℂ).submatrix id e)ᴴ *
      (h.1.eigenvectorUnitary : Matrix (Row P N) (Row P N) ℂ).submatrix id e = 1 := by
    ext i j
    have := congrFun (congrFun h1 (e i)) (e j)
    rw [Matrix.mul_apply, Matrix.one_apply] at this
    rw [Matrix.mul_apply, Matrix.one_apply]
    simp only [e.injective.eq_iff] at this
    exact this
  have hr : (h.1.eigenvectorUnitary : Matrix (Row P N) (Row P N) ℂ).submatrix id e *
      ((h.1.eigenvectorUnitary : Matrix (Row P N) (Row P N) ℂ).submatrix id e)ᴴ = 1 := by
    rw [Matrix.conjTranspose_submatrix, Matrix.submatrix_mul_equiv, h2]
    exact Matrix.submatrix_one_equiv (Equiv.refl _)
  refine ⟨hl, hr, hl, hr, fun i => ?_, h.1.eigenvalues₀_antitone, ?_⟩
  · have := h.eigenvalues_nonneg (e i)
    unfold Matrix.IsHermitian.eigenvalues at this
    rwa [Equiv.symm_apply_apply] at this
  · have hs := h.1.spectral_theorem
    rw [Unitary.conjStarAlgAut_apply] at hs
    have e1 : diagonal (fun i => (h.1.eigenvalues₀ i : ℂ)) =
        (diagonal (RCLike.ofReal ∘ h.1.eigenvalues) : Matrix (Row P N) (Row P N) ℂ).submatrix e e := by
      ext i j
      rw [Matrix.submatrix_apply, Matrix.diagonal_apply, Matrix.diagonal_apply]
      by_cases hij : i = j
      · subst hij
        rw [if_pos rfl, if_pos rfl]
        show _ = ((h.1.eigenvalues (e i) : ℝ) : ℂ)
        unfold Matrix.IsHermitian.eigenvalues
        rw [Equiv.symm_apply_apply]
      · rw [if_neg hij, if_neg (fun h => hij (e.injective h))]
    rw [e1, Matrix.conjTranspose_submatrix, Matrix.submatrix_mul_equiv, Matrix.submatrix_mul_equiv]
    exact hs

/-! ## The least error -/

/-- Sum of squared magnitudes. -/
def squares {R C : Type} [Fintype R] [Fintype C] (X : Matrix R C ℂ) : ℝ := ∑ r, ∑ c, Complex.normSq (X r c)

/-- The mean square error of estimates `B` of what was received, for responses of unit power at every frequency, independent of
each other and of the noise of power `σ`. -/
def risk {P N : ℕ} (F : Fin P → Fin N → ℂ) (σ : ℝ) (B : Matrix (Fin N) (Row P N) ℂ) : ℝ :=
  squares (B * system F - 1) + σ * squares B

theorem squares_trace {R C : Type} [Fintype R] [Fintype C] (X : Matrix R C ℂ) : (squares X : ℂ) = (X * Xᴴ).trace := by
  unfold squares Matrix.trace
  push_cast
  refine Finset.sum_congr rfl fun r _ => ?_
  rw [Matrix.diag_apply, Matrix.mul_apply]
  refine Finset.sum_congr rfl fun c _ => ?_
  rw [Matrix.conjTranspose_apply, Complex.star_def, Complex.mul_conj]

theorem squares_add {R C : Type} [Fintype R] [Fintype C] (X Y : Matrix R C ℂ) :
    squares (X + Y) = squares X + squares Y + 2 * ((Y * Xᴴ).trace).re := by
  have h : ((squares (X + Y) : ℝ) : ℂ) = (squares X : ℂ) + squares Y + ((Y * Xᴴ).trace + star (Y * Xᴴ).trace) := by
    rw [squares_trace, squares_trace, squares_trace, ← Matrix.trace_conjTranspose, conjTranspose_mul, conjTranspose_conjTranspose,
      conjTranspose_add, Matrix.add_mul, Matrix.mul_add, Matrix.mul_add]
    simp only [Matrix.trace_add]
    ring
  have h2 := congrArg Complex.re h
  simp only [Complex.ofReal_re, Complex.add_re, Complex.star_def, Complex.conj_re] at h2
  linarith

theorem squares_nonneg {R C : Type} [Fintype R] [Fintype C] (X : Matrix R C ℂ) : 0 ≤ squares X :=
  Finset.sum_nonneg fun _ _ => Finset.sum_nonneg fun _ _ => Complex.normSq_nonneg _

theorem squares_eq_zero {R C : Type} [Fintype R] [Fintype C] (X : Matrix R C ℂ) (h : squares X = 0) : X = 0 := by
  ext r c
  have h1 := (Finset.sum_eq_zero_iff_of_nonneg
    (fun _ _ => Finset.sum_nonneg fun _ _ => Complex.normSq_nonneg _)).mp h r (Finset.mem_univ _)
  exact Complex.normSq_eq_zero.mp
    ((Finset.sum_eq_zero_iff_of_nonneg fun _ _ => Complex.normSq_nonneg _).mp h1 c (Finset.mem_univ _))

/-- C143: no linear estimator has a smaller mean square error, and with noise none other has the same. -/
theorem C143_optimal {P N : ℕ} (svd : Matrix (Row P N) (Row P N) ℂ → Svd P N)
    (hsvd : ∀ A, A.PosSemidef → IsSvd A (svd A)) (F : Fin P → Fin N → ℂ) (σ : ℝ) (hσ : 0 ≤ σ)
    (hE : ∀ k, 0 < energy F k + σ) (B : Matrix (Fin N) (Row P N) ℂ) :
    risk F σ (estimator svd F σ) ≤ risk F σ B ∧ (0 < σ → risk F σ B = risk F σ (estimator svd F σ) → B = estimator svd F σ) := by
  set M := estimator svd F σ with hM
  have hMA : M * loaded F σ = (system F)ᴴ := by
    have e : M = diagonal (fun k => 1 / ((energy F k + σ : ℝ) : ℂ)) * (system F)ᴴ := by
      ext k r
      rw [hM, (C143_estimator svd hsvd F σ hσ hE).2 k r, Matrix.diagonal_mul, Matrix.conjTranspose_apply, system]
      by_cases h : r.2 = k
      · rw [if_pos h, if_pos h]; ring
      · rw [if_neg h, if_neg h]; simp
    rw [e, Matrix.mul_assoc, system_loaded, ← Matrix.mul_assoc, Matrix.diagonal_mul_diagonal]
    have : (fun k => 1 / ((energy F k + σ : ℝ) : ℂ) * ((energy F k + σ : ℝ) : ℂ)) = fun _ => 1 := by
      funext k
      exact one_div_mul_cancel (by exact_mod_cast (hE k).ne')
    rw [this, Matrix.diagonal_one, Matrix.one_mul]
  have hAM : loaded F σ * Mᴴ = system F := by
    have := congrArg conjTranspose hMA
    rwa [conjTranspose_mul, loaded_hermitian, conjTranspose_conjTranspose] at this
  have hcross : ((B - M) * system F * (M * system F - 1)ᴴ).trace + (σ : ℂ) * ((B - M) * Mᴴ).trace = 0 := by
    have : (B - M) * system F * (M * system F - 1)ᴴ + (σ : ℂ) • ((B - M) * Mᴴ) = (B - M) * (loaded F σ * Mᴴ - system F) := by
      rw [loaded, conjTranspose_sub, conjTranspose_mul, conjTranspose_one, Matrix.mul_sub, Matrix.mul_one, Matrix.mul_sub,
        Matrix.add_mul, Matrix.mul_add, Matrix.smul_mul, Matrix.one_mul, Matrix.mul_smul]
      simp only [Matrix.mul_assoc]
      abel
    have h := congrArg Matrix.trace this
    rw [Matrix.trace_add, Matrix.trace_smul, hAM, sub_self, Matrix.mul_zero, Matrix.trace_zero, smul_eq_mul] at h
    exact h
  have hre := congrArg Complex.re hcross
  simp only [Complex.add_re, Complex.re_ofReal_mul, Complex.zero_re] at hre
  have hB : risk F σ B = risk F σ M + squares ((B - M) * system F) + σ * squares (B - M) := by
    unfold risk
    have e1 : B * system F - 1 = (M * system F - 1) + (B - M) * system F := by rw [Matrix.sub_mul]; abel
    have e2 : squares B = squares (M + (B - M)) := by congr 1; abel
    rw [e1, e2, squares_add, squares_add]
    linear_combination 2 * hre
  have n1 := squares_nonneg ((B - M) * system F)
  have n2 := squares_nonneg (B - M)
  refine ⟨by nlinarith, fun h0 h => ?_⟩
  have h3 : σ * squares (B - M) = 0 := by nlinarith [mul_nonneg hσ n2]
  have h4 := squares_eq_zero _ ((mul_eq_zero.mp h3).resolve_left h0.ne')
  exact sub_eq_zero.mp h4

/-- Two probes of two samples, one of them with a gap, in noise. -/
example (B : Matrix (Fin 2) (Row 2 2) ℂ) :
    risk (fun p k => if p = 1 ∧ k = 0 then 0 else 1) (1 / 2)
      (estimator (spectralSvd 2 2) (fun p k => if p = 1 ∧ k = 0 then 0 else 1) (1 / 2)) ≤
    risk (fun p k => if p = 1 ∧ k = 0 then 0 else 1) (1 / 2) B :=
  (C143_optimal (spectralSvd 2 2) (spectralSvd_isSvd 2 2) _ _ (by norm_num) (fun k => by
    have : 0 ≤ energy (fun (p k : Fin 2) => if p = 1 ∧ k = 0 then (0:ℂ) else 1) k :=
      Finset.sum_nonneg fun _ _ => Complex.normSq_nonneg _
    linarith) B).1

/-! ## Calibrations -/

/-- Noise powers handed over or known: values by receive chain, or an array of another number of dimensions. -/
inductive Powers
  | chains (σ : List ℝ)
  | shaped (values : List ℝ)

/-- All values of an array. -/
def Powers.values : Powers → List ℝ
  | .chains σ => σ
  | .shaped v => v

/-- Noise powers used and those the device assumes afterwards, lines 493-498 and `physical_device.py` 398-429: what is handed over,
else what the device assumes, else `measured`, the power of each receive chain, which the device assumes from then on. -/
def resolve (given own : Option Powers) (measured : List ℝ) : Powers × Option Powers :=
  match given, own with
  | some σ, _ => (σ, own)
  | none, some σ => (σ, own)
  | none, none => (.chains measured, some (.chains measured))

/-- Spectra of all probes, lines 488-490; the root of probe `p` is `p + 1`. -/
def spectra (P N : ℕ) : Fin P → Fin N → ℂ := fun p k => sentSpectrum N (p.val + 1) k.val

/-- `np.mean`, line 518, which is undefined for no values. -/
def mean (σ : List ℝ) : ℝ := σ.sum / σ.length

/-- Estimates of spectra, lines 533-540. -/
def spectrum (svd : ∀ P N, Matrix (Row P N) (Row P N) ℂ → Svd P N) (trigger : (ℕ → ℤ → ℂ) → ℕ → ℕ → ℂ) (P N : ℕ) (σ : ℝ)
    (m n k : ℕ) : ℂ :=
  if hk : k < N then
    ∑ r : Row P N, estimator (svd P N) (spectra P N) σ ⟨k, hk⟩ r * receivedSpectrum trigger N (r.1.val + 1) m n r.2.val
  else 0

/-- `MMSEEstimate`, lines 446-551, with the noise powers the device assumes afterwards.  What the device is triggered to send is not
recorded, and the calibration is not handed to the device. -/
def mmse (svd : ∀ P N, Matrix (Row P N) (Row P N) ℂ → Svd P N) (trigger : (ℕ → ℤ → ℂ) → ℕ → ℕ → ℂ) (nr nt : ℕ) (rate delay : ℚ)
    (P N : ℤ) (given own : Option Powers) (measured : List ℝ) : Except PyErr Calibration × Option Powers :=
  if P < 1 then (.error .value, own)
  else if N < 1 then (.error .value, own)
  else
    let used := resolve given own measured
    if ∃ σ ∈ used.1.values, σ < 0 then (.error .value, used.2)
    else match used.1 with
      | .shaped _ => (.error .value, used.2)
      | .chains σ =>
        if σ.length ≠ nt then (.error .value, used.2)
        else
          let response := fun m n l => ifft .backward N.toNat (spectrum svd trigger P.toNat N.toNat (mean σ) m n) l
          (new nr nt N.toNat response rate delay none none, used.2)

theorem energy_eq (P N : ℕ) (k : Fin N) :
    energy (spectra P N) k = ∑ p ∈ Finset.range P, Complex.normSq (sentSpectrum N (p + 1) k.val) := by
  unfold energy spectra
  exact (Finset.sum_range fun p => Complex.normSq (sentSpectrum N (p + 1) k.val)).symm

theorem energy_pos (P N : ℕ) (hP : 1 ≤ P) (k : Fin N) : 0 < energy (spectra P N) k := by
  rw [energy_eq]
  refine Finset.sum_pos' (fun p _ => Complex.normSq_nonneg _) ⟨0, by simp; omega, ?_⟩
  rw [Complex.normSq_pos]
  exact spectrum_ne_zero N (by have := k.isLt; omega) k.val

theorem spectrum_eq (svd : ∀ P N, Matrix (Row P N) (Row P N) ℂ → Svd P N)
    (hsvd : ∀ P N A, A.PosSemidef → IsSvd A (svd P N A)) (trigger : (ℕ → ℤ → ℂ) → ℕ → ℕ → ℂ) (P N : ℕ) (hP : 1 ≤ P) (σ : ℝ)
    (hσ : 0 ≤ σ) (m n k : ℕ) (hk : k < N) :
    spectrum svd trigger P N σ m n k =
      (∑ p ∈ Finset.range P, (starRingEnd ℂ) (sentSpectrum N (p + 1) k) * receivedSpectrum trigger N (p + 1) m n k) /
        (((∑ p ∈ Finset.range P, Complex.normSq (sentSpectrum N (p + 1) k)) + σ : ℝ) : ℂ) := by
  have h := (C143_estimator (svd P N) (hsvd P N) (spectra P N) σ hσ (fun k => by have := energy_pos P N hP k; linarith)).2 ⟨k, hk⟩
  unfold spectrum
  rw [dif_pos hk, Fintype.sum_prod_type, Finset.sum_range, Finset.sum_div]
  refine Finset.sum_congr rfl fun p _ => ?_
  rw [Finset.sum_eq_single (⟨k, hk⟩ : Fin N)]
  · rw [h, if_pos rfl, energy_eq, Complex.star_def]
    unfold spectra
    ring
  · intro b _ hb
    rw [h, if_neg hb, zero_mul]
  · simp

theorem mean_nonneg (σ : List ℝ) (h : ∀ x ∈ σ, 0 ≤ x) : 0 ≤ mean σ :=
  div_nonneg (List.sum_nonneg h) (Nat.cast_nonneg _)

/-- What `mmse` returns if the noise powers are accepted. -/
theorem mmse_ok (svd : ∀ P N, Matrix (Row P N) (Row P N) ℂ → Svd P N) (trigger : (ℕ → ℤ → ℂ) → ℕ → ℕ → ℂ) (nr nt : ℕ)
    (rate delay : ℚ) (P N : ℕ) (hP : 1 ≤ P) (hN : 1 ≤ N) (given own : Option Powers) (measured σ : List ℝ)
    (hu : (resolve given own measured).1 = .chains σ) (hlen : σ.length = nt) (h : ∀ x ∈ σ, 0 ≤ x) :
    (mmse svd trigger nr nt rate delay P N given own measured).1 =
      new nr nt N (fun m n l => ifft .backward N (spectrum svd trigger P N (mean σ) m n) l) rate delay none none := by
  unfold mmse
  rw [if_neg (by omega), if_neg (by omega)]
  dsimp only
  rw [if_neg (by
    rw [hu]
    rintro ⟨x, hx, h0⟩
    have := h x hx
    linarith)]
  simp only [hu]
  rw [if_neg (by simpa using hlen)]
  simp

/-- C143: whatever the device receives, and however the singular vectors are chosen, the spectrum of every estimated response is the
sum of what was received weighed by what was sent, over the power sent plus the mean noise power. -/
theorem C143_response (svd : ∀ P N, Matrix (Row P N) (Row P N) ℂ → Svd P N)
    (hsvd : ∀ P N A, A.PosSemidef → IsSvd A (svd P N A)) (trigger : (ℕ → ℤ → ℂ) → ℕ → ℕ → ℂ) (nr nt : ℕ)
    (rate delay : ℚ) (hr : 0 < rate) (hd : 0 ≤ delay) (P N : ℕ) (hP : 1 ≤ P) (hN : 1 ≤ N) (own : Option Powers)
    (measured σ : List ℝ) (hlen : σ.length = nt) (h : ∀ x ∈ σ, 0 ≤ x) :
    ∃ c, mmse svd trigger nr nt rate delay P N (some (.chains σ)) own measured = (.ok c, own) ∧
      c.M = nr ∧ c.N = nt ∧ c.L = N ∧ c.rate = rate ∧ c.delay = delay ∧ c.transmit = none ∧ c.receive = none ∧
      ∀ m n, ∀ k < N, fft .backward N (c.h m n) k =
        (∑ p ∈ Finset.range P, (starRingEnd ℂ) (sentSpectrum N (p + 1) k) * receivedSpectrum trigger N (p + 1) m n k) /
          (((∑ p ∈ Finset.range P, Complex.normSq (sentSpectrum N (p + 1) k)) + σ.sum / nt : ℝ) : ℂ) := by
  refine ⟨⟨nr, nt, N, fun m n l => ifft .backward N (spectrum svd trigger P N (mean σ) m n) l, rate, delay, none, none⟩, ?_,
    rfl, rfl, rfl, rfl, rfl, rfl, rfl, ?_⟩
  · refine Prod.ext ?_ ?_
    · rw [mmse_ok svd trigger nr nt rate delay P N hP hN (some (.chains σ)) own measured σ rfl hlen h]
      exact (Verif.HwLeakage.C110_new _ _ _ _ _ _ _ _).2 hr hd
    · unfold mmse resolve
      rw [if_neg (by omega), if_neg (by omega)]
      dsimp only
      split_ifs <;> rfl
  · intro m n k hk
    rw [show σ.sum / (nt : ℝ) = mean σ from by rw [← hlen]; rfl]
    show fft .backward N (ifft .backward N (spectrum svd trigger P N (mean σ) m n)) k = _
    rw [fft_ifft _ _ _ _ hk, spectrum_eq svd hsvd trigger P N hP _ (mean_nonneg σ h) m n k hk]

/-- C143: without noise the estimate is the one by least squares, for everything a device may receive. -/
theorem C143_noiseless (svd : ∀ P N, Matrix (Row P N) (Row P N) ℂ → Svd P N)
    (hsvd : ∀ P N A, A.PosSemidef → IsSvd A (svd P N A)) (trigger : (ℕ → ℤ → ℂ) → ℕ → ℕ → ℂ) (nr nt : ℕ)
    (rate delay : ℚ) (P N : ℕ) (hP : 1 ≤ P) (hN : 1 ≤ N) (own : Option Powers) (measured σ : List ℝ) (hlen : σ.length = nt)
    (h : ∀ x ∈ σ, x = 0) :
    (mmse svd trigger nr nt rate delay P N (some (.chains σ)) own measured).1 = estimate trigger nr nt rate delay P N none := by
  rw [mmse_ok svd trigger nr nt rate delay P N hP hN (some (.chains σ)) own measured σ rfl hlen (fun x hx => (h x hx).ge)]
  unfold estimate
  rw [if_neg (by omega), if_neg (by omega)]
  have h0 : mean σ = 0 := by
    unfold mean
    rw [List.sum_eq_zero h, zero_div]
  have e : (fun m n l => ifft .backward N (spectrum svd trigger P N (mean σ) m n) l) =
      fun m n l => ifft .backward N (leastSquares trigger P N m n) l := by
    funext m n l
    refine Verif.Dft.ifft_congr _ _ _ _ _ fun k hk => ?_
    rw [spectrum_eq svd hsvd trigger P N hP _ h0.ge m n k hk, h0, add_zero]
    unfold leastSquares
    congr 1
    push_cast
    refine Finset.sum_congr rfl fun p _ => ?_
    rw [mul_comm, Complex.mul_conj]
  rw [e]
  simp

/-- C143: without noise the response of a leaking device is found exactly. -/
theorem C143_exact_partial (svd : ∀ P N, Matrix (Row P N) (Row P N) ℂ → Svd P N)
    (hsvd : ∀ P N A, A.PosSemidef → IsSvd A (svd P N A)) (nr nt L : ℕ) (h : ℕ → ℕ → ℕ → ℂ) (rate delay : ℚ) (hr : 0 < rate)
    (hd : 0 ≤ delay) (P N : ℕ) (hP : 1 ≤ P) (hN : 1 ≤ N) (hL : L ≤ N) (own : Option Powers) (measured σ : List ℝ)
    (hlen : σ.length = nt) (h0 : ∀ x ∈ σ, x = 0) :
    ∃ c, (mmse svd (leaky nt L h) nr nt rate delay P N (some (.chains σ)) own measured).1 = .ok c ∧ c.M = nr ∧ c.N = nt ∧
      c.L = N ∧ ∀ m, ∀ n < nt, ∀ l < N, c.h m n l = if l < L then h m n l else 0 := by
  rw [C143_noiseless svd hsvd _ nr nt rate delay P N hP hN own measured σ hlen h0]
  obtain ⟨c, h1, h2, h3, h4, -, -, -, -, h5⟩ := Verif.HwLeakage.C110_estimate_partial nr nt L h rate delay hr hd P N hP hN hL
  exact ⟨c, h1, h2, h3, h4, h5⟩

/-- Power is kept by the transform. -/
theorem parseval (N : ℕ) (x : ℕ → ℂ) :
    ∑ k ∈ Finset.range N, Complex.normSq (fft .ortho N x k) = ∑ j ∈ Finset.range N, Complex.normSq (x j) := by
  have h : ((∑ k ∈ Finset.range N, Complex.normSq (fft .ortho N x k) : ℝ) : ℂ) =
      ((∑ j ∈ Finset.range N, Complex.normSq (x j) : ℝ) : ℂ) := by
    push_cast
    have e : ∀ j ∈ Finset.range N, (Complex.normSq (x j) : ℂ) = (starRingEnd ℂ) (x j) * ifft .ortho N (fft .ortho N x) j := by
      intro j hj
      rw [ifft_fft _ _ _ _ (Finset.mem_range.mp hj), mul_comm, Complex.mul_conj]
    rw [Finset.sum_congr rfl e]
    have e2 : ∀ k ∈ Finset.range N, (Complex.normSq (fft .ortho N x k) : ℂ) =
        fft .ortho N x k * (starRingEnd ℂ) (fft .ortho N x k) := fun k _ => (Complex.mul_conj _).symm
    rw [Finset.sum_congr rfl e2]
    generalize hy : fft .ortho N x = y
    have e3 : ∀ k, (starRingEnd ℂ) (y k) = (starRingEnd ℂ) (fft .ortho N x k) := fun k => by rw [hy]
    simp only [e3]
    unfold fft ifft Norm.fwd Norm.bwd
    simp only [map_mul, map_sum, Finset.mul_sum]
    rw [Finset.sum_comm]
    refine Finset.sum_congr rfl fun j _ => Finset.sum_congr rfl fun k _ => ?_
    have h1 : (starRingEnd ℂ) (Complex.exp (-(2 * Real.pi * Complex.I * k * j / N))) =
        Complex.exp (2 * Real.pi * Complex.I * j * k / N) := by
      rw [← Complex.exp_conj]
      congr 1
      simp only [map_neg, map_div₀, map_mul, Complex.conj_I, Complex.conj_ofReal, map_natCast, map_ofNat]
      ring
    have h2 : (starRingEnd ℂ) (1 / ((Real.sqrt N : ℝ) : ℂ)) = 1 / ((Real.sqrt N : ℝ) : ℂ) := by
      rw [map_div₀, map_one, Complex.conj_ofReal]
    rw [h1, h2]
    ring
  exact_mod_cast h

/-- The first probe is sent with unit power at every frequency. -/
theorem unit_power (N : ℕ) (k : ℕ) (hk : k < N) : Complex.normSq (sentSpectrum N 1 k) = 1 := by
  have hN : 1 ≤ N := by omega
  have hall : ∀ j, ‖sentSpectrum N 1 j‖ = ‖sentSpectrum N 1 0‖ := by
    intro j
    induction j with
    | zero => rfl
    | succ j ih => rw [Verif.HwLeakage.norm_spectrum N hN, ih]
  have h1 := parseval N (fun j : ℕ => Verif.HwLeakage.chu N 1 j)
  have h2 : ∀ j ∈ Finset.range N, Complex.normSq (Verif.HwLeakage.chu N 1 (j : ℕ)) = 1 := by
    intro j _
    unfold Verif.HwLeakage.chu
    rw [Complex.normSq_eq_norm_sq, Complex.norm_exp]
    have : (-(Real.pi * Complex.I * ((1 : ℕ) : ℂ) * ((((j : ℕ) : ℤ) * (((j : ℕ) : ℤ) + Verif.HwLeakage.parity N + 2) : ℤ) : ℂ) / N)).re = 0 := by
      rw [show -(Real.pi * Complex.I * ((1 : ℕ) : ℂ) * ((((j : ℕ) : ℤ) * (((j : ℕ) : ℤ) + Verif.HwLeakage.parity N + 2) : ℤ) : ℂ) / N) =
        ((-(Real.pi * ((((j : ℕ) : ℤ) * (((j : ℕ) : ℤ) + Verif.HwLeakage.parity N + 2) : ℤ) : ℝ) / N) : ℝ) : ℂ) * Complex.I from by
          push_cast; ring, Complex.re_ofReal_mul, Complex.I_re, mul_zero]
    rw [this, Real.exp_zero, one_pow]
  have h3 : ∀ j ∈ Finset.range N, Complex.normSq (fft .ortho N (fun j : ℕ => Verif.HwLeakage.chu N 1 j) j) =
      Complex.normSq (sentSpectrum N 1 k) := by
    intro j _
    show Complex.normSq (sentSpectrum N 1 j) = _
    rw [Complex.normSq_eq_norm_sq, Complex.normSq_eq_norm_sq, hall j, hall k]
  rw [Finset.sum_congr rfl h2, Finset.sum_congr rfl h3] at h1
  simp only [Finset.sum_const, Finset.card_range, nsmul_eq_mul, mul_one] at h1
  have hN0 : (N : ℝ) ≠ 0 := by exact_mod_cast (by omega : N ≠ 0)
  exact mul_left_cancel₀ hN0 (by rw [h1, mul_one])

/-- C143 fails with noise: by a single probe every response of a leaking device is estimated too weak, all samples by the same
factor, even if nothing disturbed the receptions. -/
theorem C143_bias_fails (svd : ∀ P N, Matrix (Row P N) (Row P N) ℂ → Svd P N)
    (hsvd : ∀ P N A, A.PosSemidef → IsSvd A (svd P N A)) (nr nt L : ℕ) (h : ℕ → ℕ → ℕ → ℂ) (rate delay : ℚ) (hr : 0 < rate)
    (hd : 0 ≤ delay) (N : ℕ) (hN : 1 ≤ N) (hL : L ≤ N) (own : Option Powers) (measured σ : List ℝ) (hlen : σ.length = nt)
    (h0 : ∀ x ∈ σ, 0 < x) :
    ∃ c, (mmse svd (leaky nt L h) nr nt rate delay 1 N (some (.chains σ)) own measured).1 = .ok c ∧
      ∀ m, ∀ n < nt, ∀ l < L, c.h m n l = h m n l / ((1 + σ.sum / nt : ℝ) : ℂ) ∧ (h m n l ≠ 0 → ‖c.h m n l‖ < ‖h m n l‖) := by
  obtain ⟨c, hc, -, -, -, -, -, -, -, -⟩ := C143_response svd hsvd (leaky nt L h) nr nt rate delay hr hd 1 N le_rfl hN own measured
    σ hlen (fun x hx => (h0 x hx).le)
  obtain ⟨e, he, -, -, -, -, -, -, -, hex⟩ := Verif.HwLeakage.C110_estimate_partial nr nt L h rate delay hr hd 1 N le_rfl hN hL
  have hm : σ.sum / (nt : ℝ) = mean σ := by rw [← hlen]; rfl
  have hm0 := mean_nonneg σ (fun x hx => (h0 x hx).le)
  have hne : ((1 + mean σ : ℝ) : ℂ) ≠ 0 := by exact_mod_cast (by linarith : (0:ℝ) < 1 + mean σ).ne'
  have hceq : c.h = fun m n l => ifft .backward N (spectrum svd (leaky nt L h) 1 N (mean σ) m n) l := by
    have h1 := congrArg Prod.fst hc
    rw [show ((1 : ℕ) : ℤ) = 1 from rfl] at h1
    have h2 := mmse_ok svd (leaky nt L h) nr nt rate delay 1 N le_rfl hN (some (.chains σ)) own measured σ rfl hlen
      (fun x hx => (h0 x hx).le)
    rw [show ((1 : ℕ) : ℤ) = 1 from rfl, h1, (Verif.HwLeakage.C110_new _ _ _ _ _ _ _ _).2 hr hd] at h2
    injection h2 with h2
    rw [h2]
  have heq : e.h = fun m n l => ifft .backward N (leastSquares (leaky nt L h) 1 N m n) l := by
    unfold estimate at he
    rw [if_neg (by omega), if_neg (by omega)] at he
    dsimp only at he
    rw [(Verif.HwLeakage.C110_new _ _ _ _ _ _ _ _).2 hr hd] at he
    injection he with he
    rw [← he]
    simp
  refine ⟨c, congrArg Prod.fst hc, fun m n hn l hl => ?_⟩
  have key : c.h m n l = h m n l / ((1 + mean σ : ℝ) : ℂ) := by
    have h1 := hex m n hn l (by omega)
    rw [if_pos hl, heq] at h1
    rw [hceq, ← h1]
    have e1 : ∀ k < N, spectrum svd (leaky nt L h) 1 N (mean σ) m n k =
        1 / ((1 + mean σ : ℝ) : ℂ) * leastSquares (leaky nt L h) 1 N m n k + 0 := by
      intro k hk
      rw [spectrum_eq svd hsvd _ 1 N le_rfl _ hm0 m n k hk]
      unfold leastSquares
      simp only [Finset.sum_range_one, Nat.zero_add]
      rw [unit_power N k hk, mul_comm _ (sentSpectrum N 1 k), Complex.mul_conj, unit_power N k hk]
      simp
      ring
    show ifft .backward N _ l = _
    rw [Verif.Dft.ifft_congr _ _ _ _ _ e1, ifft_linear .backward N _ _ (fun _ => 0) l]
    have : ifft .backward N (fun _ => 0) l = 0 := by simp [ifft]
    rw [this]
    ring
  rw [hm]
  refine ⟨key, fun hz => ?_⟩
  rw [key, norm_div, Complex.norm_real, Real.norm_of_nonneg (by linarith)]
  have hpos : 0 < mean σ := by
    have hnt : 0 < σ.length := by omega
    refine div_pos (List.sum_pos σ h0 ?_) (by exact_mod_cast hnt)
    intro hnil
    rw [hnil] at hnt
    simp at hnt
  exact div_lt_self (norm_pos_iff.mpr hz) (by linarith)

/-- C143: numbers of probes or samples less than one, negative noise powers, and others than one for each transmit port raise
`ValueError`. -/
theorem C143_errors (svd : ∀ P N, Matrix (Row P N) (Row P N) ℂ → Svd P N) (trigger : (ℕ → ℤ → ℂ) → ℕ → ℕ → ℂ) (nr nt : ℕ)
    (rate delay : ℚ) (P N : ℤ) (given : Powers) (own : Option Powers) (measured : List ℝ)
    (h : P < 1 ∨ N < 1 ∨ (∃ x ∈ given.values, x < 0) ∨ given.values.length ≠ nt ∨ ∃ v, given = .shaped v) :
    mmse svd trigger nr nt rate delay P N (some given) own measured = (.error .value, own) := by
  unfold mmse resolve
  dsimp only
  by_cases h1 : P < 1
  · rw [if_pos h1]
  rw [if_neg h1]
  by_cases h2 : N < 1
  · rw [if_pos h2]
  rw [if_neg h2]
  by_cases h3 : ∃ x ∈ given.values, x < 0
  · rw [if_pos h3]
  rw [if_neg h3]
  rcases h with h | h | h | h | ⟨v, rfl⟩
  · exact absurd h h1
  · exact absurd h h2
  · exact absurd h h3
  · cases given with
    | shaped v => rfl
    | chains σ => exact if_pos h
  · rfl

/-- Runs of `MMSEEstimate` one after another without noise powers handed over: `traces` is what the device receives and measures in
each run. -/
def runs (svd : ∀ P N, Matrix (Row P N) (Row P N) ℂ → Svd P N) (nr nt : ℕ) (rate delay : ℚ) (P N : ℤ) :
    Option Powers → List (((ℕ → ℤ → ℂ) → ℕ → ℕ → ℂ) × List ℝ) → List (Except PyErr Calibration)
  | _, [] => []
  | own, t :: ts =>
    let r := mmse svd t.1 nr nt rate delay P N none own t.2
    r.1 :: runs svd nr nt rate delay P N r.2 ts

/-- C143 fails for devices with other numbers of receive than of transmit ports: if their noise power is to be estimated, which
gives one value for each receive port, they cannot be calibrated, however often it is tried. -/
theorem C143_ports_fails (svd : ∀ P N, Matrix (Row P N) (Row P N) ℂ → Svd P N) (nr nt : ℕ) (hne : nr ≠ nt) (rate delay : ℚ) (P N : ℤ)
    (ts : List (((ℕ → ℤ → ℂ) → ℕ → ℕ → ℂ) × List ℝ)) (hm : ∀ t ∈ ts, t.2.length = nr) (c : Except PyErr Calibration)
    (hc : c ∈ runs svd nr nt rate delay P N none ts) : c = .error .value := by
  have main : ∀ (own : Option Powers), (∀ σ, own = some σ → ∃ l, σ = .chains l ∧ l.length = nr) →
      ∀ t : ((ℕ → ℤ → ℂ) → ℕ → ℕ → ℂ) × List ℝ, t.2.length = nr →
      (mmse svd t.1 nr nt rate delay P N none own t.2).1 = .error .value ∧
      ∀ σ, (mmse svd t.1 nr nt rate delay P N none own t.2).2 = some σ → ∃ l, σ = .chains l ∧ l.length = nr := by
    intro own ho t ht
    have hres : ∃ l, (resolve none own t.2) = (.chains l, some (.chains l)) ∧ l.length = nr := by
      cases own with
      | none => exact ⟨t.2, rfl, ht⟩
      | some σ =>
        obtain ⟨l, hl, hl2⟩ := ho σ rfl
        exact ⟨l, by rw [hl]; rfl, hl2⟩
    obtain ⟨l, hl, hl2⟩ := hres
    unfold mmse
    rw [hl]
    dsimp only
    by_cases h1 : P < 1
    · rw [if_pos h1]; exact ⟨rfl, ho⟩
    rw [if_neg h1]
    by_cases h2 : N < 1
    · rw [if_pos h2]; exact ⟨rfl, ho⟩
    rw [if_neg h2]
    have hlast : ∀ σ, some (Powers.chains l) = some σ → ∃ l, σ = .chains l ∧ l.length = nr := by
      intro σ hs
      injection hs with hs
      exact ⟨l, hs.symm, hl2⟩
    by_cases h3 : ∃ x ∈ (Powers.chains l).values, x < 0
    · rw [if_pos h3]; exact ⟨rfl, hlast⟩
    rw [if_neg h3, if_pos (by omega)]
    exact ⟨rfl, hlast⟩
  suffices h : ∀ own : Option Powers, (∀ σ, own = some σ → ∃ l, σ = .chains l ∧ l.length = nr) →
      c ∈ runs svd nr nt rate delay P N own ts → c = .error .value from h none (by simp) hc
  clear hc
  induction ts with
  | nil => intro own _ hc; simp [runs] at hc
  | cons t ts ih =>
    intro own ho hc
    have hm1 := main own ho t (hm t (by simp))
    unfold runs at hc
    dsimp only at hc
    rcases List.mem_cons.mp hc with hc | hc
    · rw [hc, hm1.1]
    · exact ih (fun t' ht' => hm t' (List.mem_cons_of_mem _ ht')) _ hm1.2 hc

/-- C143: with as many receive as transmit ports, noise powers measured once are used by all later runs. -/
theorem C143_measured (svd : ∀ P N, Matrix (Row P N) (Row P N) ℂ → Svd P N) (trigger : (ℕ → ℤ → ℂ) → ℕ → ℕ → ℂ) (n : ℕ)
    (rate delay : ℚ) (P N : ℕ) (hP : 1 ≤ P) (hN : 1 ≤ N) (measured later : List ℝ) :
    mmse svd trigger n n rate delay P N none none measured =
      ((mmse svd trigger n n rate delay P N (some (.chains measured)) none later).1, some (.chains measured)) ∧
    mmse svd trigger n n rate delay P N none (some (.chains measured)) later =
      mmse svd trigger n n rate delay P N none none measured := by
  have hP' : ¬ ((P : ℤ) < 1) := by omega
  have hN' : ¬ ((N : ℤ) < 1) := by omega
  unfold mmse resolve
  simp only [if_neg hP', if_neg hN']
  constructor
  · split_ifs <;> rfl
  · trivial

/-- C143: all runs of a device of which no noise power was known use the one measured in the first. -/
theorem C143_remembered (svd : ∀ P N, Matrix (Row P N) (Row P N) ℂ → Svd P N) (n : ℕ) (rate delay : ℚ) (P N : ℕ) (hP : 1 ≤ P)
    (hN : 1 ≤ N) (first : ((ℕ → ℤ → ℂ) → ℕ → ℕ → ℂ) × List ℝ) (ts : List (((ℕ → ℤ → ℂ) → ℕ → ℕ → ℂ) × List ℝ)) :
    runs svd n n rate delay P N none (first :: ts) =
      (first :: ts).map fun t => (mmse svd t.1 n n rate delay P N (some (.chains first.2)) none []).1 := by
  have hstep : ∀ t : ((ℕ → ℤ → ℂ) → ℕ → ℕ → ℂ) × List ℝ, mmse svd t.1 n n rate delay P N none (some (.chains first.2)) t.2 =
      ((mmse svd t.1 n n rate delay P N (some (.chains first.2)) none []).1, some (.chains first.2)) := by
    intro t
    have h := C143_measured svd t.1 n rate delay P N hP hN first.2
    rw [(h t.2).2, (h []).1]
  have hrest : runs svd n n rate delay P N (some (.chains first.2)) ts =
      ts.map fun t => (mmse svd t.1 n n rate delay P N (some (.chains first.2)) none []).1 := by
    induction ts with
    | nil => rfl
    | cons t ts ih =>
      unfold runs
      dsimp only
      rw [hstep t, ih, List.map_cons]
  unfold runs
  dsimp only
  rw [(C143_measured svd first.1 n rate delay P N hP hN first.2 []).1, hrest, List.map_cons]

/-- A device of two ports each, with noise: a response of two samples is found at half its size. -/
example : ∃ c, (mmse spectralSvd (leaky 2 2 fun m n l => m + n + l) 2 2 1 0 1 5 (some (.chains [1, 1])) none []).1 = .ok c ∧
    c.h 1 1 1 = 3 / 2 := by
  obtain ⟨c, h1, h2⟩ := C143_bias_fails spectralSvd spectralSvd_isSvd 2 2 2 (fun m n l => m + n + l) 1 0 (by norm_num) le_rfl 5
    (by norm_num) (by norm_num) none [] [1, 1] rfl (by simp)
  refine ⟨c, h1, ?_⟩
  rw [(h2 1 1 (by norm_num) 1 (by norm_num)).1]
  norm_num

example : ∃ c, (mmse spectralSvd (leaky 2 2 fun m n l => m + n + l) 3 2 1 0 7 127 (some (.chains [0, 0])) none []).1 = .ok c ∧
    c.h 2 1 1 = 4 := by
  obtain ⟨c, h1, -, -, -, h2⟩ := C143_exact_partial spectralSvd spectralSvd_isSvd 3 2 2 (fun m n l => m + n + l) 1 0 (by norm_num)
    le_rfl 7 127 (by norm_num) (by norm_num) (by norm_num) none [] [0, 0] rfl (by simp)
  refine ⟨c, h1, ?_⟩
  rw [h2 2 1 (by norm_num) 1 (by norm_num)]
  norm_num

/-- Two receive ports and one transmit port, two tries. -/
example (trigger : (ℕ → ℤ → ℂ) → ℕ → ℕ → ℂ) (c : Except PyErr Calibration)
    (hc : c ∈ runs spectralSvd 2 1 1 0 7 127 none [(trigger, [1, 2]), (trigger, [2, 1])]) : c = .error .value :=
  C143_ports_fails spectralSvd 2 1 (by norm_num) 1 0 7 127 _ (by simp) c hc

end

end Verif.HwLeakageMmse
