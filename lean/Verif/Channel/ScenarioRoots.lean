import Verif.Channel.Scenarios
import Mathlib.LinearAlgebra.Matrix.PosDef
import Mathlib.Analysis.Matrix.Order

/-!
# C120: correlations of the large scale parameters
-/

namespace Verif.CdlScenario

open Verif
open scoped Matrix

/-- Pivots of a matrix are positive. -/
def Pivots : (n : Nat) → (Fin n → Fin n → ℚ) → Prop
  | 0, _ => True
  | n + 1, M => 0 < M 0 0 ∧ Pivots n fun i j => M i.succ j.succ - M i.succ 0 * M 0 j.succ / M 0 0

instance decPivots : (n : Nat) → (M : Fin n → Fin n → ℚ) → Decidable (Pivots n M)
  | 0, _ => isTrue trivial
  | n + 1, M =>
    have := decPivots n fun i j => M i.succ j.succ - M i.succ 0 * M 0 j.succ / M 0 0
    inferInstanceAs (Decidable (0 < M 0 0 ∧ Pivots n fun i j => M i.succ j.succ - M i.succ 0 * M 0 j.succ / M 0 0))

/-- Symmetric matrices of positive pivots are positive definite. -/
theorem form_pos (n : Nat) (M : Fin n → Fin n → ℚ) (hs : ∀ i j, M i j = M j i) (hp : Pivots n M) (x : Fin n → ℝ)
    (hx : x ≠ 0) : 0 < ∑ i, ∑ j, (M i j : ℝ) * x i * x j := by
  induction n with
  | zero => exact absurd (funext fun i => i.elim0) hx
  | succ n ih =>
    obtain ⟨h0, hr⟩ := hp
    have h0' : (0 : ℝ) < (M 0 0 : ℝ) := by exact_mod_cast h0
    set y : Fin n → ℝ := fun i => x i.succ with hy
    set b : ℝ := ∑ j : Fin n, (M 0 j.succ : ℝ) * y j with hb
    have key : ∑ i, ∑ j, (M i j : ℝ) * x i * x j = (M 0 0 : ℝ) * (x 0 + b / M 0 0) ^ 2 +
        ∑ i, ∑ j, ((M i.succ j.succ - M i.succ 0 * M 0 j.succ / M 0 0 : ℚ) : ℝ) * y i * y j := by
      have e1 : ∑ i, ∑ j, (M i j : ℝ) * x i * x j = (M 0 0 : ℝ) * x 0 * x 0 + x 0 * b + x 0 * b +
          ∑ i : Fin n, ∑ j : Fin n, (M i.succ j.succ : ℝ) * y i * y j := by
        rw [Fin.sum_univ_succ, Fin.sum_univ_succ]
        simp_rw [Fin.sum_univ_succ (f := fun j => (M (Fin.succ _) j : ℝ) * x (Fin.succ _) * x j)]
        rw [Finset.sum_add_distrib]
        have e2 : ∑ j : Fin n, (M 0 j.succ : ℝ) * x 0 * x j.succ = x 0 * b := by
          rw [hb, Finset.mul_sum]
          exact Finset.sum_congr rfl fun j _ => by rw [hy]; ring
        have e3 : ∑ i : Fin n, (M i.succ 0 : ℝ) * x i.succ * x 0 = x 0 * b := by
          rw [hb, Finset.mul_sum]
          exact Finset.sum_congr rfl fun j _ => by rw [hs j.succ 0, hy]; ring
        rw [e2, e3]
        ring
      have e4 : ∑ i : Fin n, ∑ j : Fin n, ((M i.succ j.succ - M i.succ 0 * M 0 j.succ / M 0 0 : ℚ) : ℝ) * y i * y j =
          ∑ i : Fin n, ∑ j : Fin n, (M i.succ j.succ : ℝ) * y i * y j - b * b / M 0 0 := by
        have e5 : b * b / (M 0 0 : ℝ) = ∑ i : Fin n, ∑ j : Fin n,
            (M i.succ 0 : ℝ) * (M 0 j.succ : ℝ) / (M 0 0 : ℝ) * y i * y j := by
          rw [hb, Finset.sum_mul_sum, Finset.sum_div]
          refine Finset.sum_congr rfl fun i _ => ?_
          rw [Finset.sum_div]
          refine Finset.sum_congr rfl fun j _ => ?_
          rw [hs i.succ 0]
          ring
        rw [e5, ← Finset.sum_sub_distrib]
        refine Finset.sum_congr rfl fun i _ => ?_
        rw [← Finset.sum_sub_distrib]
        refine Finset.sum_congr rfl fun j _ => ?_
        push_cast
        ring
      rw [e1, e4]
      field_simp
      ring
    rw [key]
    have hs' : ∀ i j : Fin n, M i.succ j.succ - M i.succ 0 * M 0 j.succ / M 0 0 =
        M j.succ i.succ - M j.succ 0 * M 0 i.succ / M 0 0 := by
      intro i j
      rw [hs i.succ j.succ, hs i.succ 0, hs 0 j.succ]
      ring
    by_cases hy0 : y = 0
    · have hx0 : x 0 ≠ 0 := by
        intro h
        apply hx
        funext i
        refine Fin.cases h (fun i => congrFun hy0 i) i
      have hb0 : b = 0 := by simp [hb, hy0]
      rw [hb0, hy0]
      simp only [Pi.zero_apply, mul_zero, Finset.sum_const_zero, add_zero, zero_div]
      positivity
    · have := ih _ hs' hr y hy0
      nlinarith [mul_nonneg h0'.le (sq_nonneg (x 0 + b / M 0 0))]

/-- All tables of the code. -/
def tables : List Table := [macroTable, microTable, ruralTable, officeTable, factoryTable]

theorem square_symm (c : List ℚ) (i j : Fin 7) : square c i j = square c j i := by
  fin_cases i <;> fin_cases j <;> rfl

/-- Correlations of all scenarios and states have positive pivots. -/
theorem table_pivots : ∀ t ∈ tables, ∀ c ∈ t, Pivots 7 (square c) := by
  decide +kernel

/-- Correlations of all scenarios and states are positive definite. -/
theorem table_pos (t : Table) (ht : t ∈ tables) (c : List ℚ) (hc : c ∈ t) : (corr c).PosDef := by
  refine Matrix.PosDef.of_dotProduct_mulVec_pos ?_ fun x hx => ?_
  · ext i j
    simp [corr, Matrix.conjTranspose_apply, square_symm c i j]
  · have := form_pos 7 (square c) (square_symm c) (table_pivots t ht c hc) x hx
    simp only [dotProduct, Matrix.mulVec, corr, Finset.mul_sum, star_trivial]
    calc 0 < _ := this
      _ = _ := Finset.sum_congr rfl fun i _ => Finset.sum_congr rfl fun j _ => by ring

/-- Contract of `np.linalg.cholesky`: factors of positive definite matrices. -/
def Factors (chol : Mat7 → Except PyErr Mat7) : Prop :=
  ∀ C : Mat7, C.PosDef → ∃ L : Mat7, chol C = .ok L ∧ L * Lᵀ = C

/-- There is such a routine. -/
theorem factors_exist : ∃ chol, Factors chol := by
  classical
  have h : ∀ C : Mat7, C.PosDef → ∃ L : Mat7, L * Lᵀ = C := by
    intro C hC
    open scoped MatrixOrder Matrix.Norms.L2Operator in
    obtain ⟨B, hB⟩ := CStarAlgebra.nonneg_iff_eq_star_mul_self.mp hC.posSemidef.nonneg
    exact ⟨Bᵀ, by rw [hB, Matrix.transpose_transpose, Matrix.star_eq_conjTranspose, Matrix.conjTranspose_eq_transpose_of_trivial]⟩
  refine ⟨fun C => if hC : C.PosDef then .ok (h C hC).choose else .error .value, fun C hC => ?_⟩
  exact ⟨(h C hC).choose, dif_pos hC, (h C hC).choose_spec⟩

/-- Roots by state. -/
theorem roots_spec (chol : Mat7 → Except PyErr Mat7) (hf : Factors chol) (t : Table) (ht : ∀ c ∈ t, (corr c).PosDef) :
    ∀ memory, ∃ f, roots chol memory t = .ok f ∧ ∀ s (h : s < t.length), f s * (f s)ᵀ = corr t[s] := by
  induction t with
  | nil => exact fun memory => ⟨memory, rfl, fun s h => absurd h (by simp)⟩
  | cons c t ih =>
    intro memory
    obtain ⟨L, hL, hLL⟩ := hf _ (ht c (by simp))
    obtain ⟨f, hfr, hfs⟩ := ih (fun d hd => ht d (by simp [hd])) fun s => memory (s + 1)
    refine ⟨fun s => match s with
      | 0 => L
      | s + 1 => f s, by simp only [roots, hL, hfr]; rfl, ?_⟩
    intro s hs
    cases s with
    | zero => exact hLL
    | succ s => exact hfs s (by simpa using hs)

/-- Names of the large scale parameters, in the order the parameters are drawn. -/
inductive Lsp
  | DS | ASD | ASA | ZSA | ZSD | K | SF

/-- Position of a parameter. -/
def Lsp.at : Lsp → Fin 7
  | .DS => 0
  | .ASD => 1
  | .ASA => 2
  | .ZSA => 3
  | .ZSD => 4
  | .K => 5
  | .SF => 6

/-- Which parameters the rows of the tables correlate, as commented in all of them, for example in
channel/cdl/urban_macrocells.py 462-482. -/
def pairs : List (Lsp × Lsp) :=
  [(.ASD, .DS), (.ASA, .DS), (.ASA, .SF), (.ASD, .SF), (.DS, .SF), (.ASD, .ASA), (.ASD, .K), (.ASA, .K), (.DS, .K), (.SF, .K),
    (.ZSD, .SF), (.ZSA, .SF), (.ZSD, .K), (.ZSA, .K), (.ZSD, .DS), (.ZSA, .DS), (.ZSD, .ASD), (.ZSA, .ASD), (.ZSD, .ASA),
    (.ZSA, .ASA), (.ZSD, .ZSA)]

theorem square_pairs (c : List ℚ) (k : Nat) (hk : k < pairs.length) :
    square c pairs[k].1.at pairs[k].2.at = c.getD k 0 := by
  have : k < 21 := hk
  interval_cases k <;> rfl

theorem square_diag (c : List ℚ) (i : Fin 7) : square c i i = 1 := by
  fin_cases i <;> rfl

/-- C120: all scenarios can be realized, whatever random numbers are drawn, and the large scale parameters of a
realization have unit variances and exactly the correlations of the table of their state.  `E` is the expectation of
random variables on `Ω`, and `z` are uncorrelated standard normal numbers. -/
theorem C120_correlations {Ω : Type} (E : (Ω → ℝ) →ₗ[ℝ] ℝ) (z : Ω → Fin 7 → ℝ)
    (hz : ∀ i j, E (fun ω => z ω i * z ω j) = if i = j then 1 else 0)
    (chol : Mat7 → Except PyErr Mat7) (hf : Factors chol) (memory : Nat → Mat7) (t : Table) (ht : t ∈ tables) :
    ∃ lsp : Ω → Nat → Fin 7 → ℝ, (∀ ω, parameters chol memory t (z ω) = .ok (lsp ω)) ∧
      ∀ s (h : s < t.length), (∀ p : Lsp, E (fun ω => lsp ω s p.at ^ 2) = 1) ∧
        ∀ k (hk : k < pairs.length), E (fun ω => lsp ω s pairs[k].1.at * lsp ω s pairs[k].2.at) = (t[s].getD k 0 : ℚ) := by
  obtain ⟨f, hr, hs⟩ := roots_spec chol hf t (fun c hc => table_pos t ht c hc) memory
  have cov : ∀ s (h : s < t.length) (i j : Fin 7), E (fun ω => (f s).mulVec (z ω) i * (f s).mulVec (z ω) j) = corr t[s] i j := by
    intro s h i j
    rw [← hs s h]
    have : (fun ω => (f s).mulVec (z ω) i * (f s).mulVec (z ω) j) =
        ∑ a, ∑ b, (f s i a * f s j b) • fun ω => z ω a * z ω b := by
      funext ω
      simp only [Matrix.mulVec, dotProduct, Finset.sum_mul_sum, Finset.sum_apply, Pi.smul_apply, smul_eq_mul]
      exact Finset.sum_congr rfl fun a _ => Finset.sum_congr rfl fun b _ => by ring
    rw [this, map_sum]
    simp only [map_sum, map_smul, hz, smul_eq_mul, Matrix.mul_apply, Matrix.transpose_apply]
    refine Finset.sum_congr rfl fun a _ => ?_
    simp
  refine ⟨fun ω s => (f s).mulVec (z ω), fun ω => by simp only [parameters, hr], fun s h => ⟨fun p => ?_, fun k hk => ?_⟩⟩
  · have := cov s h p.at p.at
    simp only [corr, square_diag, Rat.cast_one] at this
    rw [← this]
    congr 1
    funext ω
    ring
  · rw [cov s h, corr, square_pairs]

/-- Hypotheses are met: expectations of seven signs, drawn one at a time. -/
example : ∃ (E : ((Fin 7 × Bool) → ℝ) →ₗ[ℝ] ℝ) (z : (Fin 7 × Bool) → Fin 7 → ℝ),
    ∀ i j, E (fun ω => z ω i * z ω j) = if i = j then 1 else 0 := by
  refine ⟨∑ i, LinearMap.proj (i, true), fun ω i => if ω.1 = i then 1 else 0, fun i j => ?_⟩
  simp only [LinearMap.sum_apply, LinearMap.proj_apply]
  by_cases h : i = j
  · subst h; simp
  · simp only [if_neg h, mul_ite, mul_one, mul_zero]
    refine Finset.sum_eq_zero fun k _ => ?_
    by_cases h1 : k = j
    · subst h1; simp [Ne.symm h]
    · simp [h1]

example : tables.map List.length = [3, 3, 3, 2, 2] := rfl

end Verif.CdlScenario
