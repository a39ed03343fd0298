import Verif.Mapping.Model
import Mathlib.Tactic.Linarith

/-!
# Signs of the 3GPP log-likelihood ratios inside the decision regions
-/

namespace Verif.Mapping

/-- A soft value agrees with a bit: positive for `1`, negative for `0`. -/
def Agrees (x : ℝ) (b : Bool) : Prop := if b then 0 < x else x < 0

section
variable {r lo hi : ℝ}

theorem m_in (h1 : lo < r) (h2 : r < hi) {a b : ℝ} [Decidable (r > a ∧ r ≤ b)] (ha : a ≤ lo)
    (hb : hi ≤ b) : ind (r > a ∧ r ≤ b) = 1 := if_pos ⟨by linarith, by linarith⟩
theorem m_hi (h1 : lo < r) {a b : ℝ} [Decidable (r > a ∧ r ≤ b)]
    (hb : b ≤ lo) : ind (r > a ∧ r ≤ b) = 0 := if_neg (by rintro ⟨_, _⟩; linarith)
theorem m_lo (h2 : r < hi) {a b : ℝ} [Decidable (r > a ∧ r ≤ b)]
    (ha : hi ≤ a) : ind (r > a ∧ r ≤ b) = 0 := if_neg (by rintro ⟨_, _⟩; linarith)
theorem le_in (h2 : r < hi) {b : ℝ} [Decidable (r ≤ b)] (hb : hi ≤ b) : ind (r ≤ b) = 1 :=
  if_pos (by linarith)
theorem le_out (h1 : lo < r) {b : ℝ} [Decidable (r ≤ b)] (hb : b ≤ lo) : ind (r ≤ b) = 0 :=
  if_neg (by linarith)
theorem gt_in (h1 : lo < r) {a : ℝ} [Decidable (r > a)] (ha : a ≤ lo) : ind (r > a) = 1 :=
  if_pos (by linarith)
theorem gt_out (h2 : r < hi) {a : ℝ} [Decidable (r > a)] (ha : hi ≤ a) : ind (r > a) = 0 :=
  if_neg (by linarith)
end

theorem div_agrees_pos {x v : ℝ} (hv : 0 < v) (h : 0 < x) : 0 < x / v := div_pos h hv
theorem div_agrees_neg {x v : ℝ} (hv : 0 < v) (h : x < 0) : x / v < 0 := div_neg_of_neg_of_pos h hv

macro "piece" h1:ident h2:ident hv:ident : tactic => `(tactic| (
  simp (disch := norm_num) only [m_in $h1 $h2, m_hi $h1, m_lo $h2, le_in $h2, le_out $h1, gt_in $h1,
    gt_out $h2, Agrees, if_true, if_false, Bool.false_eq_true]
  first
    | exact div_agrees_pos $hv (by linarith)
    | exact div_agrees_neg $hv (by linarith)))

theorem llr4_agrees (b0 b1 : Bool) (s : ℤ) (hs : pam 4 [b0, b1] = .ok s) (r v : ℝ) (hv : 0 < v)
    (h : |r - s| < 1) : Agrees (llr4_0 r v) b0 ∧ Agrees (llr4_1 r v) b1 := by
  obtain ⟨h1, h2⟩ := abs_lt.mp h
  have hlo : (s : ℝ) - 1 < r := by linarith
  have hhi : r < (s : ℝ) + 1 := by linarith
  clear h h1 h2
  revert hs
  cases b0 <;> cases b1 <;> intro hs <;>
    (simp only [pam, bit, Except.ok.injEq, if_true, if_false, Bool.false_eq_true] at hs
     norm_num at hs
     subst hs
     norm_num at hlo hhi
     refine ⟨?_, ?_⟩ <;> ((try unfold llr4_0); (try unfold llr4_1); piece hlo hhi hv))

theorem llr8_agrees (b0 b1 b2 : Bool) (s : ℤ) (hs : pam 8 [b0, b1, b2] = .ok s) (r v : ℝ) (hv : 0 < v)
    (h : |r - s| < 1) : Agrees (llr8_0 r v) b0 ∧ Agrees (llr8_1 r v) b1 ∧ Agrees (llr8_2 r v) b2 := by
  obtain ⟨h1, h2⟩ := abs_lt.mp h
  have hlo : (s : ℝ) - 1 < r := by linarith
  have hhi : r < (s : ℝ) + 1 := by linarith
  clear h h1 h2
  revert hs
  cases b0 <;> cases b1 <;> cases b2 <;> intro hs <;>
    (simp only [pam, bit, Except.ok.injEq, if_true, if_false, Bool.false_eq_true] at hs
     norm_num at hs
     subst hs
     norm_num at hlo hhi
     refine ⟨?_, ?_, ?_⟩ <;> ((try unfold llr8_0); (try unfold llr8_1); (try unfold llr8_2); piece hlo hhi hv))

theorem llr16_agrees (b0 b1 b2 b3 : Bool) (s : ℤ) (hs : pam 16 [b0, b1, b2, b3] = .ok s) (r v : ℝ) (hv : 0 < v)
    (h : |r - s| < 1) : Agrees (llr16_0 r v) b0 ∧ Agrees (llr16_1 r v) b1 ∧ Agrees (llr16_2 r v) b2 ∧ Agrees (llr16_3 r v) b3 := by
  obtain ⟨h1, h2⟩ := abs_lt.mp h
  have hlo : (s : ℝ) - 1 < r := by linarith
  have hhi : r < (s : ℝ) + 1 := by linarith
  clear h h1 h2
  revert hs
  cases b0 <;> cases b1 <;> cases b2 <;> cases b3 <;> intro hs <;>
    (simp only [pam, bit, Except.ok.injEq, if_true, if_false, Bool.false_eq_true] at hs
     norm_num at hs
     subst hs
     norm_num at hlo hhi
     refine ⟨?_, ?_, ?_, ?_⟩ <;> ((try unfold llr16_0); (try unfold llr16_1); (try unfold llr16_2); (try unfold llr16_3); piece hlo hhi hv))

end Verif.Mapping
