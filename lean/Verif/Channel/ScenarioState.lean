import Verif.Channel.ScenarioLoss
import Verif.Channel.ClusterDrawSample
import Mathlib.Analysis.Complex.ExponentialBounds

/-!
# C120: states, parameters and samples of the scenarios
-/

namespace Verif.CdlScenario

open Verif Verif.Core
open Verif.CdlDraw (State Link Scenario Realization link clusterDelays Drawable Placed End)
open Verif.Cdl (Sample)

/-! ### Line of sight -/

theorem urbanSight_eq (lk : Link) : urbanSight lk = 1 - (1 - Real.exp (-lk.d3 / 36)) * (1 - 18 / lk.d3) := by
  unfold urbanSight
  ring

/-- C120: links are in line of sight at short distances, whatever number is drawn. -/
theorem C120_near (u : ℝ) (hu : u < 1) (lk : Link) (hd : 0 < lk.d3) (f : Factory) :
    (lk.d3 ≤ 18 → urbanMacro.choose u lk = 0 ∧ urbanMicro.choose u lk = 0) ∧ (lk.d2 ≤ 10 → rural.choose u lk = 0) ∧
      (lk.d2 ≤ 1.2 → (office false).choose u lk = 0) ∧ (lk.d2 ≤ 5 → (office true).choose u lk = 0) ∧
      (f.type = .HH → f.scenario.choose u lk = 0) := by
  refine ⟨fun h => ?_, fun h => ?_, fun h => ?_, fun h => ?_, fun h => ?_⟩
  · have : 1 ≤ urbanSight lk := by
      rw [urbanSight_eq]
      have h1 : Real.exp (-lk.d3 / 36) ≤ 1 := Real.exp_le_one_iff.mpr (by linarith [div_nonneg hd.le (by norm_num : (0 : ℝ) ≤ 36), neg_div 36 lk.d3])
      have h2 : 1 ≤ 18 / lk.d3 := (one_le_div hd).mpr h
      nlinarith
    exact ⟨if_pos (lt_of_lt_of_le hu this), if_pos (lt_of_lt_of_le hu this)⟩
  · refine if_pos (lt_of_lt_of_le hu ?_)
    apply Real.one_le_exp
    apply div_nonneg <;> linarith
  · refine if_pos ?_
    simp only [officeSight, Bool.false_eq_true, if_false]
    rw [if_pos h]
    exact hu
  · refine if_pos ?_
    simp only [officeSight, if_true]
    rw [if_pos h]
    exact hu
  · refine if_pos ?_
    simp only [Factory.sight, h]
    exact hu

theorem exp_neg_lt (x : ℝ) (hx : 0 < x) : Real.exp (-x) < 1 / x := by
  rw [Real.exp_neg, ← one_div]
  apply one_div_lt_one_div_of_lt hx
  linarith [Real.add_one_le_exp x]

/-- C120: whatever positive number is drawn, links are blocked at sufficiently large distances, except in factories with
both devices above the clutter. -/
theorem C120_far (u : ℝ) (hu : 0 < u) (f : Factory) (hf : f.type ≠ .HH) (base terminal : ℝ) (hclutter : f.clutter ≠ terminal) :
    ∃ D : ℝ, ∀ lk : Link, D ≤ lk.d2 → lk.d2 ≤ lk.d3 → lk.base = base → lk.terminal = terminal →
      urbanMacro.choose u lk = 1 ∧ urbanMicro.choose u lk = 1 ∧ rural.choose u lk = 1 ∧ (office false).choose u lk = 1 ∧
        (office true).choose u lk = 1 ∧ f.scenario.choose u lk = 1 := by
  have hscale : ∀ (k a : ℝ), 0 < k → ∀ d, a + k / u ≤ d → Real.exp (-(d - a) / k) ≤ u := by
    intro k a hk d hd
    have h1 : 0 < k / u := div_pos hk hu
    have h2 : 1 / u ≤ (d - a) / k := by
      rw [div_le_div_iff₀ hu hk]
      have h3 : k / u ≤ d - a := by linarith
      rw [div_le_iff₀ hu] at h3
      linarith
    have h3 : 0 < (d - a) / k := lt_of_lt_of_le (by positivity) h2
    have := exp_neg_lt _ h3
    rw [neg_div]
    calc Real.exp (-((d - a) / k)) ≤ 1 / ((d - a) / k) := this.le
      _ ≤ 1 / (1 / u) := one_div_le_one_div_of_le (by positivity) h2
      _ = u := by rw [one_div_one_div]
  -- The scale of factories.
  obtain ⟨K, hK⟩ : ∃ K : ℝ, ∀ lk : Link, lk.base = base → lk.terminal = terminal →
      f.sight lk = if 0 < K then Real.exp (-lk.d2 / K) else 0 := by
    cases hft : f.type with
    | HH => exact absurd hft hf
    | SL => exact ⟨_, fun lk _ _ => by simp only [Factory.sight, hft]; rfl⟩
    | DL => exact ⟨_, fun lk _ _ => by simp only [Factory.sight, hft]; rfl⟩
    | SH =>
      refine ⟨-FactoryType.SH.size * (base - terminal) / (Real.log (1 - FactoryType.SH.density) * (f.clutter - terminal)),
        fun lk h1 h2 => ?_⟩
      simp only [Factory.sight, hft, h1, h2]
      rw [if_neg hclutter]
    | DH =>
      refine ⟨-FactoryType.DH.size * (base - terminal) / (Real.log (1 - FactoryType.DH.density) * (f.clutter - terminal)),
        fun lk h1 h2 => ?_⟩
      simp only [Factory.sight, hft, h1, h2]
      rw [if_neg hclutter]
  refine ⟨max (max (54 / u + 1) (10 + 1000 / u)) (max (max (6.5 + 32.6 / u) (49.5 + 211.7 / u)) (|K| / u)),
    fun lk hD hd h1 h2 => ?_⟩
  have d1 : 54 / u + 1 ≤ lk.d2 := le_trans (le_trans (le_max_left _ _) (le_max_left _ _)) hD
  have d2 : 10 + 1000 / u ≤ lk.d2 := le_trans (le_trans (le_max_right _ _) (le_max_left _ _)) hD
  have d3 : 6.5 + 32.6 / u ≤ lk.d2 := le_trans (le_trans (le_trans (le_max_left _ _) (le_max_left _ _)) (le_max_right _ _)) hD
  have d4 : 49.5 + 211.7 / u ≤ lk.d2 := le_trans (le_trans (le_trans (le_max_right _ _) (le_max_left _ _)) (le_max_right _ _)) hD
  have d5 : |K| / u ≤ lk.d2 := le_trans (le_trans (le_max_right _ _) (le_max_right _ _)) hD
  have hurban : ¬u < urbanSight lk := by
    have h54 : 0 < 54 / u := by positivity
    have hpos : 0 < lk.d3 := by linarith
    have h3 := exp_neg_lt (lk.d3 / 36) (by positivity)
    rw [← neg_div] at h3
    have h4 : 54 / lk.d3 < u := by
      rw [div_lt_iff₀ hpos]
      have : 54 / u < lk.d3 := by linarith
      rw [div_lt_iff₀ hu] at this
      linarith
    have h5 : 1 / (lk.d3 / 36) = 36 / lk.d3 := by field_simp
    have h6 : 18 / lk.d3 + 36 / lk.d3 = 54 / lk.d3 := by ring
    have h7 : 0 < 18 / lk.d3 := by positivity
    have h8 := Real.exp_pos (-lk.d3 / 36)
    unfold urbanSight
    rw [not_lt]
    nlinarith
  refine ⟨if_neg hurban, if_neg hurban, if_neg (not_lt.mpr (hscale 1000 10 (by norm_num) _ d2)), if_neg ?_, if_neg ?_, if_neg ?_⟩
  · have h0 : 0 < 32.6 / u := by positivity
    simp only [officeSight, Bool.false_eq_true, if_false]
    rw [if_neg (by linarith), if_neg (by linarith), not_lt]
    have := hscale 32.6 6.5 (by norm_num) _ d3
    have := Real.exp_pos (-(lk.d2 - 6.5) / 32.6)
    nlinarith
  · have h0 : 0 < 211.7 / u := by positivity
    simp only [officeSight, if_true]
    rw [if_neg (by linarith), if_neg (by linarith), not_lt]
    have := hscale 211.7 49 (by norm_num) _ (by linarith : 49 + 211.7 / u ≤ lk.d2)
    have := Real.exp_pos (-(lk.d2 - 49) / 211.7)
    nlinarith
  · rw [hK lk h1 h2, not_lt]
    split
    · rename_i hKp
      have := hscale K 0 hKp lk.d2 (by rw [zero_add]; rwa [abs_of_pos hKp] at d5)
      simpa using this
    · exact hu.le

theorem exp_office : 0.32 ≤ Real.exp (-((6.5 : ℝ) - 1.2) / 4.7) := by
  have h1 : Real.exp (0.6 / 4.7 : ℝ) ≤ 1 / (1 - 0.6 / 4.7) := by
    have := Real.add_one_le_exp (-(0.6 / 4.7) : ℝ)
    rw [Real.exp_neg] at this
    have hp := Real.exp_pos (0.6 / 4.7 : ℝ)
    rw [le_div_iff₀ (by norm_num)]
    have h2 : (1 - 0.6 / 4.7 : ℝ) ≤ (Real.exp (0.6 / 4.7))⁻¹ := by linarith
    calc Real.exp (0.6 / 4.7) * (1 - 0.6 / 4.7) ≤ Real.exp (0.6 / 4.7) * (Real.exp (0.6 / 4.7))⁻¹ :=
          mul_le_mul_of_nonneg_left h2 hp.le
      _ = 1 := mul_inv_cancel₀ hp.ne'
  have h2 : Real.exp (((6.5 : ℝ) - 1.2) / 4.7) = Real.exp 1 * Real.exp (0.6 / 4.7) := by
    rw [← Real.exp_add]
    congr 1
    norm_num
  have h3 := Real.exp_one_lt_d9
  have h4 : Real.exp (((6.5 : ℝ) - 1.2) / 4.7) ≤ 1 / 0.32 := by
    rw [h2]
    have hp := Real.exp_pos (0.6 / 4.7 : ℝ)
    calc Real.exp 1 * Real.exp (0.6 / 4.7) ≤ 2.7182818286 * (1 / (1 - 0.6 / 4.7)) :=
          mul_le_mul h3.le h1 hp.le (by norm_num)
      _ ≤ 1 / 0.32 := by norm_num
  rw [neg_div, Real.exp_neg, ← one_div]
  rw [le_div_iff₀ (Real.exp_pos _)]
  rw [le_div_iff₀ (by norm_num)] at h4
  linarith

theorem factory_sight_anti (f : Factory) (lk lk' : Link) (h : Farther lk lk') : f.sight lk' ≤ f.sight lk := by
  have hp : ∀ k : ℝ, (if 0 < k then Real.exp (-lk'.d2 / k) else 0) ≤ if 0 < k then Real.exp (-lk.d2 / k) else 0 := by
    intro k
    split
    · rename_i hk
      apply Real.exp_le_exp.mpr
      exact div_le_div_of_nonneg_right (by linarith [h.d2]) hk.le
    · exact le_refl _
  simp only [Factory.sight, h.base, h.terminal]
  cases f.type <;> simp only
  · exact hp _
  · split
    · exact le_refl _
    · exact hp _
  · exact hp _
  · split
    · exact le_refl _
    · exact hp _
  · exact le_refl _

theorem choose_of_le {p p' u : ℝ} (h : p' ≤ p) (hc : (if u < p' then (0 : State) else 1) = 0) :
    (if u < p then (0 : State) else 1) = 0 := by
  by_contra hn
  split at hc
  · rename_i h1
    rw [if_pos (lt_of_lt_of_le h1 h)] at hn
    exact hn rfl
  · exact absurd hc (by decide)

/-- C120: with the same number drawn, links in line of sight stay in line of sight when terminals approach horizontally.
Missing: open offices. -/
theorem C120_closer_partial (u : ℝ) (hu : u < 1) (lk lk' : Link) (g : Geometric lk) (g' : Geometric lk') (h : Farther lk lk')
    (f : Factory) :
    (urbanMacro.choose u lk' = 0 → urbanMacro.choose u lk = 0) ∧ (urbanMicro.choose u lk' = 0 → urbanMicro.choose u lk = 0) ∧
      (rural.choose u lk' = 0 → rural.choose u lk = 0) ∧ ((office false).choose u lk' = 0 → (office false).choose u lk = 0) ∧
      (f.scenario.choose u lk' = 0 → f.scenario.choose u lk = 0) := by
  have h3 := h.d3 g g'
  have hurban : urbanChoose u lk' = 0 → urbanChoose u lk = 0 := by
    intro hc
    rcases le_total lk.d3 18 with h18 | h18
    · exact ((C120_near u hu lk g.apart f).1 h18).1
    · refine choose_of_le (p' := urbanSight lk') ?_ hc
      rw [urbanSight_eq, urbanSight_eq]
      have e1 : Real.exp (-lk'.d3 / 36) ≤ Real.exp (-lk.d3 / 36) :=
        Real.exp_le_exp.mpr (div_le_div_of_nonneg_right (by linarith) (by norm_num))
      have e2 : 18 / lk'.d3 ≤ 18 / lk.d3 := div_le_div_of_nonneg_left (by norm_num) g.apart h3
      have e3 : 18 / lk.d3 ≤ 1 := (div_le_one g.apart).mpr h18
      have e4 : Real.exp (-lk.d3 / 36) ≤ 1 :=
        Real.exp_le_one_iff.mpr (by rw [neg_div]; linarith [div_nonneg g.apart.le (by norm_num : (0 : ℝ) ≤ 36)])
      nlinarith
  refine ⟨hurban, hurban, fun hc => ?_, fun hc => ?_, fun hc => ?_⟩
  · refine choose_of_le (p' := Real.exp (-(lk'.d2 - 10) / 1000)) ?_ hc
    exact Real.exp_le_exp.mpr (div_le_div_of_nonneg_right (by linarith [h.d2]) (by norm_num))
  · refine choose_of_le (p' := officeSight false lk'.d2) ?_ hc
    have h2 := h.d2
    simp only [officeSight, Bool.false_eq_true, if_false]
    have m1 : ∀ a b k : ℝ, 0 < k → a ≤ b → Real.exp (-b / k) ≤ Real.exp (-a / k) := by
      intro a b k hk hab
      exact Real.exp_le_exp.mpr (div_le_div_of_nonneg_right (by linarith) hk.le)
    have m2 : ∀ b k : ℝ, 0 < k → 0 ≤ b → Real.exp (-b / k) ≤ 1 := by
      intro b k hk hb
      exact Real.exp_le_one_iff.mpr (by rw [neg_div]; linarith [div_nonneg hb hk.le])
    by_cases a1 : lk.d2 ≤ 1.2
    · rw [if_pos a1]
      split
      · exact le_refl _
      · split
        · exact m2 _ _ (by norm_num) (by linarith)
        · have := m2 (lk'.d2 - 6.5) 32.6 (by norm_num) (by linarith)
          linarith
    · rw [if_neg a1, if_neg (by linarith : ¬lk'.d2 ≤ 1.2)]
      by_cases a2 : lk.d2 < 6.5
      · rw [if_pos a2]
        split
        · exact m1 _ _ _ (by norm_num) (by linarith)
        · have e1 := m2 (lk'.d2 - 6.5) 32.6 (by norm_num) (by linarith)
          have e2 := m1 (lk.d2 - 1.2) (6.5 - 1.2) 4.7 (by norm_num) (by linarith)
          have e3 := exp_office
          linarith
      · rw [if_neg a2, if_neg (by linarith : ¬lk'.d2 < 6.5)]
        have := m1 (lk.d2 - 6.5) (lk'.d2 - 6.5) 32.6 (by norm_num) (by linarith)
        linarith
  · exact choose_of_le (factory_sight_anti f lk lk' h) hc

theorem exp_open : Real.exp (-((49 : ℝ) - 5) / 70.8) < 0.5389 := by
  have e : Real.exp (((49 : ℝ) - 5) / 70.8) = Real.exp (((49 : ℝ) - 5) / 70.8 / 4) ^ 4 := by
    rw [← Real.exp_nat_mul]
    congr 1
    push_cast
    ring
  have h1 : (1 + 44 / 70.8 / 4 + (44 / 70.8 / 4) ^ 2 / 2 : ℝ) ≤ Real.exp (((49 : ℝ) - 5) / 70.8 / 4) := by
    have := Real.quadratic_le_exp_of_nonneg (x := ((49 : ℝ) - 5) / 70.8 / 4) (by norm_num)
    refine le_trans (le_of_eq ?_) this
    norm_num
  have h2 : (1 / 0.5389 : ℝ) < Real.exp (((49 : ℝ) - 5) / 70.8) := by
    rw [e]
    calc (1 / 0.5389 : ℝ) < (1 + 44 / 70.8 / 4 + (44 / 70.8 / 4) ^ 2 / 2) ^ 4 := by norm_num
      _ ≤ _ := pow_le_pow_left₀ (by norm_num) h1 4
  rw [neg_div, Real.exp_neg, ← one_div, div_lt_iff₀ (Real.exp_pos _)]
  rw [div_lt_iff₀ (by norm_num)] at h2
  linarith

/-- C120 fails for open offices, where terminals can get into line of sight by moving away from 49 metres, as the standard
has it: the probability jumps up there. -/
theorem C120_open_fails : ∃ u : ℝ, 0 < u ∧ u < 1 ∧ ∃ d : ℝ, 49 < d ∧ ∀ fc hB hU, (office true).choose u (someLink fc hB hU 49) = 1 ∧
    (office true).choose u (someLink fc hB hU d) = 0 := by
  refine ⟨0.5389, by norm_num, by norm_num, 49.1, by norm_num, fun fc hB hU => ⟨if_neg ?_, if_pos ?_⟩⟩
  · show ¬(0.5389 : ℝ) < officeSight true 49
    simp only [officeSight, if_true]
    rw [if_neg (by norm_num), if_pos (le_refl _), not_lt]
    exact exp_open.le
  · show (0.5389 : ℝ) < officeSight true 49.1
    simp only [officeSight, if_true]
    rw [if_neg (by norm_num), if_neg (by norm_num)]
    have := Real.add_one_le_exp (-((49.1 : ℝ) - 49) / 211.7)
    have h2 : (0.9995 : ℝ) ≤ -((49.1 : ℝ) - 49) / 211.7 + 1 := by norm_num
    linarith

/-- C120: the jump is small: whoever draws 0.54 or more is out of sight at 49 metres and everywhere beyond. -/
theorem C120_open_jump (u : ℝ) (hu : 0.54 ≤ u) (lk : Link) (h : 49 ≤ lk.d2) : (office true).choose u lk = 1 := by
  refine if_neg ?_
  rw [not_lt]
  simp only [officeSight, if_true]
  rw [if_neg (by linarith)]
  split
  · next h' =>
    rw [le_antisymm h' h]
    linarith [exp_open]
  · next h' =>
    have : Real.exp (-(lk.d2 - 49) / 211.7) ≤ 1 := by
      rw [Real.exp_le_one_iff, neg_div, neg_nonpos]
      exact div_nonneg (by linarith) (by norm_num)
    linarith

/-- Sixty metres apart, drawing 0.6. -/
example : (office true).choose 0.6 (someLink 1e9 3 1 60) = 1 := C120_open_jump 0.6 (by norm_num) _ (by norm_num [someLink])

/-- C120 fails for bases high above terminals of urban scenarios: the standard has line of sight up to a horizontal
distance of eighteen metres, but the slanted distance is compared, so that links to terminals below the base can be blocked. -/
theorem C120_height_fails (lk : Link) (h : 18 < lk.d3) : ∃ u : ℝ, 0 < u ∧ u < 1 ∧ urbanMacro.choose u lk = 1 ∧ urbanMicro.choose u lk = 1 := by
  have hd : 0 < lk.d3 := by linarith
  have h1 : Real.exp (-lk.d3 / 36) < 1 := by
    rw [← Real.exp_zero]
    apply Real.exp_lt_exp.mpr
    rw [neg_div]
    linarith [div_pos hd (by norm_num : (0 : ℝ) < 36)]
  have h2 : 18 / lk.d3 < 1 := (div_lt_one hd).mpr h
  have h3 : urbanSight lk < 1 := by
    rw [urbanSight_eq]
    nlinarith [mul_pos (sub_pos.mpr h1) (sub_pos.mpr h2)]
  have h4 : 0 < urbanSight lk := by
    unfold urbanSight
    have := Real.exp_pos (-lk.d3 / 36)
    have : 0 < 18 / lk.d3 := by positivity
    nlinarith
  exact ⟨urbanSight lk, h4, h3, if_neg (lt_irrefl _), if_neg (lt_irrefl _)⟩

/-- C120: between devices of the same height, urban links are in line of sight with the probability of the standard. -/
theorem C120_sight_partial (u : ℝ) (hu : u < 1) (lk : Link) (g : Geometric lk) (h : lk.base = lk.terminal) :
    (urbanMacro.choose u lk = 0 ↔ lk.d2 ≤ 18 ∨ u < 18 / lk.d2 + Real.exp (-lk.d2 / 36) * (1 - 18 / lk.d2)) ∧
    (urbanMicro.choose u lk = 0 ↔ lk.d2 ≤ 18 ∨ u < 18 / lk.d2 + Real.exp (-lk.d2 / 36) * (1 - 18 / lk.d2)) := by
  have e : lk.d3 = lk.d2 := by
    have := g.pythagoras
    rw [h, sub_self] at this
    have := g.apart
    have := g.flat
    nlinarith
  have key : urbanChoose u lk = 0 ↔ lk.d2 ≤ 18 ∨ u < 18 / lk.d2 + Real.exp (-lk.d2 / 36) * (1 - 18 / lk.d2) := by
    constructor
    · intro hc
      simp only [urbanChoose] at hc
      split at hc
      · rename_i h1
        rw [urbanSight, e] at h1
        exact Or.inr h1
      · exact absurd hc (by decide)
    · rintro (h1 | h1)
      · exact ((C120_near u hu lk g.apart ⟨1, 1, .HH, 0⟩).1 (by rw [e]; exact h1)).1
      · refine if_pos ?_
        rw [urbanSight, e]
        exact h1
  exact ⟨key, key⟩

/-! ### Clutter -/

theorem div_le_div_of_neg {a b x y : ℝ} (hx : x < 0) (hy : y < 0) (h : a * y ≤ b * x) : a / x ≤ b / y := by
  rw [← neg_div_neg_eq a x, ← neg_div_neg_eq b y, div_le_div_iff₀ (by linarith) (by linarith)]
  linarith

/-- C120: links in line of sight in factories of dense clutter would be so in those of sparse clutter, too. -/
theorem C120_dense (V S c u : ℝ) (lk : Link) (g : Geometric lk) :
    ((Factory.scenario ⟨V, S, .DL, c⟩).choose u lk = 0 → (Factory.scenario ⟨V, S, .SL, c⟩).choose u lk = 0) ∧
    ((Factory.scenario ⟨V, S, .DH, c⟩).choose u lk = 0 → (Factory.scenario ⟨V, S, .SH, c⟩).choose u lk = 0) := by
  have l8 : Real.log (1 - 0.20) < 0 := Real.log_neg (by norm_num) (by norm_num)
  have l4 : Real.log (1 - 0.60) < 0 := Real.log_neg (by norm_num) (by norm_num)
  have l84 : Real.log (1 - 0.60) ≤ Real.log (1 - 0.20) := Real.log_le_log (by norm_num) (by norm_num)
  have hp : ∀ k k' : ℝ, (0 < k → k ≤ k') → (if 0 < k then Real.exp (-lk.d2 / k) else 0) ≤
      if 0 < k' then Real.exp (-lk.d2 / k') else 0 := by
    intro k k' hk
    split
    · rename_i h0
      rw [if_pos (lt_of_lt_of_le h0 (hk h0))]
      apply Real.exp_le_exp.mpr
      rw [neg_div, neg_div, neg_le_neg_iff]
      exact div_le_div_of_nonneg_left g.flat h0 (hk h0)
    · split
      · exact (Real.exp_pos _).le
      · exact le_refl _
  constructor
  · refine choose_of_le ?_
    simp only [Factory.sight]
    apply hp
    intro _
    simp only [FactoryType.size, FactoryType.density]
    apply div_le_div_of_neg l4 l8
    nlinarith
  · refine choose_of_le ?_
    simp only [Factory.sight]
    split
    · exact le_refl _
    · apply hp
      intro hk
      simp only [FactoryType.size, FactoryType.density] at hk ⊢
      have hh : 0 ≤ lk.base - lk.terminal := by linarith [g.above]
      by_cases hc : 0 < c - lk.terminal
      · have n4 : Real.log (1 - 0.60) * (c - lk.terminal) < 0 := mul_neg_of_neg_of_pos l4 hc
        have n8 : Real.log (1 - 0.20) * (c - lk.terminal) < 0 := mul_neg_of_neg_of_pos l8 hc
        apply div_le_div_of_neg n4 n8
        have := mul_nonneg hh hc.le
        nlinarith
      · exfalso
        have n4 : 0 ≤ Real.log (1 - 0.60) * (c - lk.terminal) := mul_nonneg_of_nonpos_of_nonpos l4.le (not_lt.mp hc)
        have : -2 * (lk.base - lk.terminal) / (Real.log (1 - 0.60) * (c - lk.terminal)) ≤ 0 :=
          div_nonpos_of_nonpos_of_nonneg (by linarith) n4
        linarith

/-- C120 fails for factories with the base above the clutter if terminals are above it as well, like all terminals are in
the default of no clutter: their links are always blocked. -/
theorem C120_clutter_fails (f : Factory) (hf : f.type = .SH ∨ f.type = .DH) (u : ℝ) (hu : 0 ≤ u) (lk : Link) (g : Geometric lk)
    (h : f.clutter < lk.terminal) : f.scenario.choose u lk = 1 := by
  have hneg : ∀ t : FactoryType, (t = .SH ∨ t = .DH) → Real.log (1 - t.density) < 0 := by
    rintro t (rfl | rfl) <;> simp only [FactoryType.density] <;> exact Real.log_neg (by norm_num) (by norm_num)
  have hsize : ∀ t : FactoryType, 0 ≤ t.size := by intro t; cases t <;> norm_num [FactoryType.size]
  refine if_neg ?_
  have key : ∀ t : FactoryType, (t = .SH ∨ t = .DH) →
      -t.size * (lk.base - lk.terminal) / (Real.log (1 - t.density) * (f.clutter - lk.terminal)) ≤ 0 := by
    intro t ht
    apply div_nonpos_of_nonpos_of_nonneg
    · have := g.above
      have := hsize t
      nlinarith
    · exact mul_nonneg_of_nonpos_of_nonpos (hneg t ht).le (by linarith)
  simp only [Factory.sight]
  rcases hf with hf | hf <;> rw [hf] <;> simp only <;> rw [if_neg h.ne, if_neg (not_lt.mpr (key _ (by simp)))] <;> exact not_lt.mpr hu

/-- C120: halls are accepted if and only if their volume and surface are positive and the clutter is at most ten metres
high, and the delay spread grows with the ratio of volume and surface. -/
theorem C120_hall (V S c : ℝ) (t : FactoryType) :
    ((∃ f, Factory.make V S t c = .ok f) ↔ 0 < V ∧ 0 < S ∧ 0 ≤ c ∧ c ≤ 10) ∧
    ∀ f f' : Factory, ∀ V' S' c' t', Factory.make V S t c = .ok f → Factory.make V' S' t' c' = .ok f' → V / S ≤ V' / S' →
      ∀ s lk lk', f.scenario.mean s lk 0 ≤ f'.scenario.mean s lk' 0 := by
  have key : ∀ V S c t f, Factory.make V S t c = .ok f → f = ⟨V, S, t, c⟩ ∧ 0 < V ∧ 0 < S ∧ 0 ≤ c ∧ c ≤ 10 := by
    intro V S c t f h
    unfold Factory.make at h
    split at h
    · cases h
    · split at h
      · cases h
      · split at h
        · cases h
        · rename_i h1 h2 h3
          push Not at h3
          cases h
          exact ⟨rfl, not_le.mp h1, not_le.mp h2, h3.1, h3.2⟩
  constructor
  · constructor
    · rintro ⟨f, h⟩
      exact (key V S c t f h).2
    · rintro ⟨h1, h2, h3, h4⟩
      refine ⟨⟨V, S, t, c⟩, ?_⟩
      unfold Factory.make
      rw [if_neg (not_le.mpr h1), if_neg (not_le.mpr h2), if_neg (by push Not; exact ⟨h3, h4⟩)]
  · intro f f' V' S' c' t' h h' hle s lk lk'
    obtain ⟨rfl, hV, hS, -⟩ := key V S c t f h
    obtain ⟨rfl, hV', hS', -⟩ := key V' S' c' t' f' h'
    simp only [Factory.scenario, row, Factory.delaySpread]
    have e : ∀ a V S : ℝ, a * V / S = a * (V / S) := fun a V S => by ring
    have hq : 0 < V / S := div_pos hV hS
    have ha : 0 < tab 26 30 30 s := by unfold tab; split <;> norm_num
    have hb : 0 < tab 14 32 32 s := by unfold tab; split <;> norm_num
    rw [e, e]
    have := lg_le (x := tab 26 30 30 s * (V / S) + tab 14 32 32 s) (by positivity)
      (add_le_add_left (mul_le_mul_of_nonneg_left hle ha.le) _)
    linarith

/-! ### Offsets -/

/-- C120 fails for the zenith offset of blocked rural links, which is to be in degrees: it is in radians. -/
theorem C120_rural_offset_fails (s : State) (hs : s ≠ 0) (lk : Link) (h : 0 < lk.d2) :
    rural.zodOffset s lk = Real.pi / 180 * (180 / Real.pi * Real.arctan (31.5 / lk.d2) - 180 / Real.pi * Real.arctan (33.5 / lk.d2)) ∧
    180 / Real.pi * Real.arctan (31.5 / lk.d2) - 180 / Real.pi * Real.arctan (33.5 / lk.d2) < 57 * rural.zodOffset s lk ∧
    rural.zodOffset s lk < 0 := by
  have hp := Real.pi_pos
  have e : rural.zodOffset s lk = Real.arctan (31.5 / lk.d2) - Real.arctan (33.5 / lk.d2) := by
    show ruralOffset s lk = _
    unfold ruralOffset
    rw [if_neg hs]
    norm_num
  have hlt : Real.arctan (31.5 / lk.d2) < Real.arctan (33.5 / lk.d2) :=
    Real.arctan_strictMono (div_lt_div_of_pos_right (by norm_num) h)
  refine ⟨?_, ?_, ?_⟩
  · rw [e]
    field_simp
  · rw [e]
    have : (57 : ℝ) < 180 / Real.pi := by
      rw [lt_div_iff₀ hp]
      nlinarith [Real.pi_lt_d2]
    nlinarith
  · rw [e]
    linarith

theorem ten_pow : (60 : ℝ) < (10 : ℝ) ^ (1.8 : ℝ) := by
  have h : ((10 : ℝ) ^ (1.8 : ℝ)) ^ 5 = 10 ^ 9 := by
    rw [← Real.rpow_natCast, ← Real.rpow_mul (by norm_num)]
    norm_num
  by_contra hc
  have := pow_le_pow_left₀ (Real.rpow_nonneg (by norm_num : (0 : ℝ) ≤ 10) 1.8) (not_lt.mp hc) 5
  rw [h] at this
  norm_num at this

/-- C120 fails for the zenith offset of blocked links in urban microcells, which is to vanish with distance: it depends on
the height of the terminal instead, so that it exceeds sixty degrees at all distances unless terminals are higher than ten
metres. -/
theorem C120_micro_offset_fails (s : State) (hs : s ≠ 0) :
    (∀ lk lk' : Link, lk.terminal = lk'.terminal → urbanMicro.zodOffset s lk = urbanMicro.zodOffset s lk') ∧
    ∀ lk : Link, lk.terminal ≤ 10 → urbanMicro.zodOffset s lk < -60 := by
  constructor
  · intro lk lk' h
    simp only [urbanMicro, microOffset, h]
  · intro lk h
    show microOffset s lk < -60
    simp only [microOffset]
    rw [if_neg hs, max_eq_left h]
    have : lg 10 = 1 := Real.logb_self_eq_one (by norm_num)
    rw [this]
    have e : (-1.5 * 1 + 3.3 : ℝ) = 1.8 := by norm_num
    rw [e]
    linarith [ten_pow]

/-- C120: there is no zenith offset in line of sight, nor indoors. -/
theorem C120_offset (s : State) (lk : Link) (open_ : Bool) (f : Factory) :
    urbanMacro.zodOffset 0 lk = 0 ∧ urbanMicro.zodOffset 0 lk = 0 ∧ rural.zodOffset 0 lk = 0 ∧
      (office open_).zodOffset s lk = 0 ∧ f.scenario.zodOffset s lk = 0 := by
  refine ⟨?_, ?_, ?_, rfl, rfl⟩
  · simp [urbanMacro, macroOffset]
  · simp [urbanMicro, microOffset]
  · simp [rural, ruralOffset]

/-! ### Samples -/

/-- Scenarios with the number of clusters their realizations draw random numbers for. -/
def Modelled (sc : Scenario) (n : Nat) : Prop :=
  (sc = urbanMacro ∧ n = macroMax) ∨ (sc = urbanMicro ∧ n = microMax) ∨ (sc = rural ∧ n = ruralMax) ∨
    (∃ o, sc = office o ∧ n = officeMax) ∨ ∃ f : Factory, sc = f.scenario ∧ n = factoryMax

/-- What channels draw for their realizations. -/
structure Drawn (r : Realization) (n : Nat) : Prop where
  unit : ∀ st a b, ∀ u ∈ (r.small st a b).delay, 0 < u ∧ u < 1
  delay : ∀ st a b, (r.small st a b).delay.length = n
  shadow : ∀ st a b, (r.small st a b).shadow.length = n

/-- C120: all scenarios can be sampled between all devices at different positions, in all of their states.  The number of
clusters is at most that of the scenario, and the power transferred is at most that left by path loss and squared gain. -/
theorem C120_sample (r : Realization) (n : Nat) (hm : Modelled r.scenario n) (hd : Drawn r n) (tx rx : End) (R S : Mat3)
    (hR : Placed tx R) (hS : Placed rx S) (hpos : tx.dev.pos ≠ rx.dev.pos) (fc bw : ℝ) (hfc : 0 < fc) :
    let lk := link fc tx.dev.pos rx.dev.pos
    let st := r.state lk tx.dev.pos rx.dev.pos
    let k := r.scenario.mean st lk 5 + r.scenario.std st lk 5 * r.lsp st 5
    ∃ s, r.sample tx rx fc bw = .ok s ∧ (s.los = true ↔ st = 0) ∧ 0 < s.delays.length ∧
      s.delays.length ≤ r.scenario.num st ∧
      ((s.los = true → 0 < CdlDraw.riceScale k) →
        s.energyScale ≤ (10 : ℝ) ^ (-r.scenario.loss st lk / 10) * r.gain ^ 2) := by
  intro lk st k
  have hn : 0 < n := by
    rcases hm with ⟨-, rfl⟩ | ⟨-, rfl⟩ | ⟨-, rfl⟩ | ⟨_, -, rfl⟩ | ⟨_, -, rfl⟩ <;> decide
  have hv : Drawable r lk tx.dev.pos rx.dev.pos := by
    refine ⟨?_, ?_, ?_, hd.unit _ _ _, by rw [hd.delay, hd.shadow]⟩
    · generalize r.state lk tx.dev.pos rx.dev.pos = st
      rcases hm with ⟨h, -⟩ | ⟨h, -⟩ | ⟨h, -⟩ | ⟨_, h, -⟩ | ⟨_, h, -⟩ <;> rw [h] <;>
        simp only [urbanMacro, urbanMicro, rural, office, Factory.scenario, tab] <;> split <;> norm_num
    · generalize r.state lk tx.dev.pos rx.dev.pos = st
      rcases hm with ⟨h, -⟩ | ⟨h, -⟩ | ⟨h, -⟩ | ⟨_, h, -⟩ | ⟨_, h, -⟩ <;> rw [h] <;>
        simp only [urbanMacro, urbanMicro, rural, office, Factory.scenario] <;> first | (split <;> norm_num) | norm_num
    · intro h
      have := hd.delay (r.state lk tx.dev.pos rx.dev.pos) tx.dev.pos rx.dev.pos
      rw [h] at this
      simp at this
      omega
  obtain ⟨s, h1, h2, -, h4, h5, h6, -⟩ := CdlDraw.C119_sample_partial r tx rx fc bw R S hR hS hpos hfc hv
  exact ⟨s, h1, h2, h4, h5, fun hk => (h6 hk).2.2.2⟩

/-- C120: all scenarios draw random numbers for all of their clusters.  Missing: blocked links of urban macrocells. -/
theorem C120_clusters_partial (sc : Scenario) (n : Nat) (hm : Modelled sc n) (st : State) (h : sc = urbanMacro → st ≠ 1) :
    sc.num st ≤ n := by
  rcases hm with ⟨rfl, rfl⟩ | ⟨rfl, rfl⟩ | ⟨rfl, rfl⟩ | ⟨_, rfl, rfl⟩ | ⟨_, rfl, rfl⟩
  · have := h rfl
    simp only [urbanMacro]
    split <;> first | decide | exact absurd rfl this
  all_goals simp only [urbanMicro, rural, office, Factory.scenario]
  all_goals first | (split <;> decide) | decide

/-- C120 fails for the twenty clusters of blocked links of urban macrocells: there are only nineteen delays. -/
theorem C120_clusters_fails (r : Realization) (hr : r.scenario = urbanMacro) (hd : Drawn r macroMax) (a b : Vec3) (ds k : ℝ)
    (hds : 0 < ds) : ∃ raw scaled least,
      clusterDelays (r.scenario.scaling 1) ds k false (r.scenario.num 1) (r.small 1 a b).delay = .ok (raw, scaled, least) ∧
      raw.length = 19 ∧ r.scenario.num 1 = 20 := by
  have hl := hd.delay 1 a b
  have hnum : r.scenario.num 1 = 20 := by rw [hr]; rfl
  have hsc : 0 < r.scenario.scaling 1 := by rw [hr]; norm_num [urbanMacro, tab]
  obtain ⟨raw, scaled, least, h1, h2, -⟩ := CdlDraw.C119_delays_partial (r.scenario.scaling 1) ds k false (r.scenario.num 1)
    (r.small 1 a b).delay hsc hds (hd.unit 1 a b) (by rw [hnum]; norm_num)
    (by intro h; rw [h] at hl; exact absurd hl (by decide))
  refine ⟨raw, scaled, least, h1, ?_, hnum⟩
  rw [h2, hnum, hl]
  rfl

theorem lg_101 : lg 101 ≤ 3 := by
  have := lg_150
  exact le_trans (lg_le (by norm_num) (by norm_num)) this

/-- C120: deviations of all parameters are positive at carrier frequencies up to a hundred gigahertz. -/
theorem C120_deviations (sc : Scenario) (n : Nat) (hm : Modelled sc n) (st : State) (lk : Link) (h0 : 0 < lk.fc)
    (h1 : lk.fc ≤ 1e11) (i : Nat) : 0 < sc.std st lk i := by
  have hlg : ∀ x : ℝ, 0 < x → x ≤ 101 → lg x ≤ 3 := fun x hx h => le_trans (lg_le hx h) lg_101
  have a1 : lg (1 + max 2e9 lk.fc * 1e-9) ≤ 3 := hlg _ (by positivity) (by
    rcases max_cases 2e9 lk.fc with ⟨h, -⟩ | ⟨h, -⟩ <;> rw [h] <;> linarith)
  have a2 : 0 ≤ lg (1 + max 2e9 lk.fc * 1e-9) := lg_nonneg (by
    have := le_max_left 2e9 lk.fc
    linarith)
  have b1 : lg (1 + lk.fc * 1e-9) ≤ 3 := hlg _ (by positivity) (by linarith)
  have b2 : 0 ≤ lg (1 + lk.fc * 1e-9) := lg_nonneg (by linarith)
  have c2 : 0 ≤ lg (1 + max 6 (lk.fc * 1e-9)) := lg_nonneg (by
    have := le_max_left 6 (lk.fc * 1e-9)
    linarith)
  rcases hm with ⟨rfl, -⟩ | ⟨rfl, -⟩ | ⟨rfl, -⟩ | ⟨_, rfl, -⟩ | ⟨_, rfl, -⟩
  · simp only [urbanMacro, row, tab]
    split <;> (try split) <;> norm_num
  · simp only [urbanMicro, row, tab2, microParam]
    split <;> (try split) <;> linarith
  · simp only [rural, row, tab]
    split <;> (try split) <;> norm_num
  · simp only [office, row, tab2, tab, indoorParam]
    split <;> (try split) <;> linarith
  · simp only [Factory.scenario, row, tab2, tab, indoorParam]
    split <;> (try split) <;> linarith

/-! Hypotheses are met. -/

noncomputable def someDraws (n : Nat) : CdlDraw.Draws :=
  ⟨List.replicate n 0, List.replicate n (1 / 2), fun _ => 0, fun _ => 0, fun _ _ => 0, fun _ _ _ _ => 0⟩

noncomputable def someMacro : Realization :=
  ⟨urbanMacro, none, fun _ _ => 1 / 2, fun _ _ _ => someDraws 19, fun _ _ => 0, fun _ => 1, fun _ => 1, fun _ _ m => m, true, false, 1⟩

example : Modelled someMacro.scenario macroMax := Or.inl ⟨rfl, rfl⟩

example : Drawn someMacro macroMax := by
  refine ⟨fun st a b u hu => ?_, fun st a b => by simp [someMacro, someDraws, macroMax], fun st a b => by simp [someMacro, someDraws, macroMax]⟩
  have : u = 1 / 2 := by simpa [someMacro, someDraws] using List.eq_of_mem_replicate hu
  rw [this]
  norm_num

/-- Terminals ten metres beside the base. -/
example : (someLink 1e9 25 1.5 10).d2 ≤ 18 ∧ 18 < (someLink 1e9 25 1.5 10).d3 := by
  refine ⟨by norm_num [someLink], ?_⟩
  show (18 : ℝ) < Real.sqrt _
  rw [Real.lt_sqrt (by norm_num)]
  norm_num

example : Geometric (someLink 1e9 8 1.5 10) := someLink_geometric _ _ _ _ (by norm_num) (by norm_num) (by norm_num)

example : (⟨1000, 600, .SH, 0⟩ : Factory).clutter < (someLink 1e9 8 1.5 10).terminal := by norm_num [someLink]

end Verif.CdlScenario
