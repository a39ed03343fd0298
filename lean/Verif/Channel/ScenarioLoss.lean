import Verif.Channel.Scenarios

/-!
# C120: path losses of the scenarios
-/

namespace Verif.CdlScenario

open Verif Verif.Core
open Verif.CdlDraw (State Link Scenario link)

theorem lg_le {x y : ℝ} (hx : 0 < x) (h : x ≤ y) : lg x ≤ lg y := Real.logb_le_logb_of_le (by norm_num) hx h

theorem lg_lt {x y : ℝ} (hx : 0 < x) (h : x < y) : lg x < lg y := Real.logb_lt_logb (by norm_num) hx h

theorem lg_nonneg {x : ℝ} (h : 1 ≤ x) : 0 ≤ lg x := Real.logb_nonneg (by norm_num) h

theorem lg_mul {x y : ℝ} (hx : 0 < x) (hy : 0 < y) : lg (x * y) = lg x + lg y := Real.logb_mul hx.ne' hy.ne'

theorem lg_div {x y : ℝ} (hx : 0 < x) (hy : 0 < y) : lg (x / y) = lg x - lg y := Real.logb_div hx.ne' hy.ne'

theorem lg_sq (x : ℝ) : lg (x ^ 2) = 2 * lg x := by
  unfold lg
  rw [Real.logb_pow]
  norm_num

/-- Links of devices at different positions. -/
structure Geometric (lk : Link) : Prop where
  pythagoras : lk.d3 ^ 2 = lk.d2 ^ 2 + (lk.base - lk.terminal) ^ 2
  flat : 0 ≤ lk.d2
  apart : 0 < lk.d3
  above : lk.terminal ≤ lk.base
  carrier : 0 < lk.fc

/-- All links which are sampled are such links. -/
theorem link_geometric (fc : ℝ) (hfc : 0 < fc) (a b : Vec3) (h : a ≠ b) : Geometric (link fc a b) where
  pythagoras := by
    simp only [link, norm3]
    rw [Real.sq_sqrt (by positivity), Real.sq_sqrt (by positivity)]
    rcases le_total (a 2) (b 2) with h | h
    · rw [max_eq_right h, min_eq_left h]; simp only [Pi.sub_apply]; ring
    · rw [max_eq_left h, min_eq_right h]; simp only [Pi.sub_apply]
  flat := Real.sqrt_nonneg _
  apart := by
    simp only [link, norm3]
    apply Real.sqrt_pos.mpr
    have h0 : a - b ≠ 0 := sub_ne_zero.mpr h
    by_contra hc
    apply h0
    have h1 : (a - b) 0 ^ 2 + (a - b) 1 ^ 2 + (a - b) 2 ^ 2 = 0 := le_antisymm (not_lt.mp hc) (by positivity)
    have s0 := sq_nonneg ((a - b) 0)
    have s1 := sq_nonneg ((a - b) 1)
    have s2 := sq_nonneg ((a - b) 2)
    funext i
    fin_cases i
    · exact pow_eq_zero_iff (two_ne_zero) |>.mp (by linarith : (a - b) 0 ^ 2 = 0)
    · exact pow_eq_zero_iff (two_ne_zero) |>.mp (by linarith : (a - b) 1 ^ 2 = 0)
    · exact pow_eq_zero_iff (two_ne_zero) |>.mp (by linarith : (a - b) 2 ^ 2 = 0)
  above := min_le_max
  carrier := hfc

/-- The terminal has moved away horizontally. -/
structure Farther (lk lk' : Link) : Prop where
  fc : lk'.fc = lk.fc
  base : lk'.base = lk.base
  terminal : lk'.terminal = lk.terminal
  d2 : lk.d2 ≤ lk'.d2

theorem Farther.d3 {lk lk' : Link} (h : Farther lk lk') (g : Geometric lk) (g' : Geometric lk') : lk.d3 ≤ lk'.d3 := by
  have h1 := g.pythagoras
  have h2 := g'.pythagoras
  rw [h.base, h.terminal] at h2
  have := g.flat
  have := h.d2
  have := g'.apart
  have := g.apart
  nlinarith

/-- Path losses of two slopes which meet at a break point of assumed heights. -/
noncomputable def broken (A B bp gap : ℝ) (d2 d3 c : ℝ) : ℝ :=
  if d2 < bp then A + B * lg d3 + c else A + 40 * lg d3 + c - (40 - B) / 2 * lg (bp ^ 2 + gap ^ 2)

theorem broken_le (A B bp gap c : ℝ) (hB : 0 ≤ B) (hB' : B ≤ 40) (hbp : 0 < bp) (lk lk' : Link) (g : Geometric lk)
    (g' : Geometric lk') (h : Farther lk lk') (hgap : gap ^ 2 ≤ (lk.base - lk.terminal) ^ 2) :
    broken A B bp gap lk.d2 lk.d3 c ≤ broken A B bp gap lk'.d2 lk'.d3 c := by
  have h3 := lg_le g.apart (h.d3 g g')
  unfold broken
  split
  · split
    · nlinarith
    · rename_i h1 h2
      have h4 : lg (bp ^ 2 + gap ^ 2) ≤ lg (lk'.d3 ^ 2) := by
        apply lg_le (by positivity)
        rw [g'.pythagoras, h.base, h.terminal]
        nlinarith [not_lt.mp h2]
      rw [lg_sq] at h4
      nlinarith
  · split
    · rename_i h1 h2
      exact absurd (lt_of_le_of_lt h.d2 h2) h1
    · linarith

/-- Height of the terminal assumed in urban scenarios. -/
noncomputable def urbanTerminal (lk : Link) : ℝ := max 1.5 (min 22.5 lk.terminal)

/-- Break point of urban scenarios: `4 (hB - 1) (hU - 1) f / c`, with `c` rounded to `3e8`. -/
noncomputable def urbanBreak (hB : ℝ) (lk : Link) : ℝ := 4 * (hB - 1) * (urbanTerminal lk - 1) * lk.fc / 3e8

theorem urbanTerminal_le (lk : Link) : 1.5 ≤ urbanTerminal lk := le_max_left _ _

theorem urbanBreak_pos (hB : ℝ) (h : 1 < hB) (lk : Link) (hfc : 0 < lk.fc) : 0 < urbanBreak hB lk := by
  have := urbanTerminal_le lk
  unfold urbanBreak
  have h1 : 0 < hB - 1 := by linarith
  have h2 : 0 < urbanTerminal lk - 1 := by linarith
  positivity

theorem macro_los (lk : Link) : macroLoss 0 lk =
    broken 28 22 (urbanBreak 25 lk) (25 - urbanTerminal lk) lk.d2 lk.d3 (20 * lg (lk.fc * 1e-9)) := by
  have e : 4 * ((25 : ℝ) - 1) * (max 1.5 (min 22.5 lk.terminal) - 1) * lk.fc * 1e-8 / 3 = urbanBreak 25 lk := by
    unfold urbanBreak urbanTerminal
    ring
  simp only [macroLoss, broken, e]
  norm_num [urbanTerminal]

theorem micro_los (lk : Link) : microLoss 0 lk =
    broken 32.4 21 (urbanBreak 10 lk) (10 - urbanTerminal lk) lk.d2 lk.d3 (20 * lg (lk.fc * 1e-9)) := by
  have e : 4 * ((10 : ℝ) - 1) * (max 1.5 (min 22.5 lk.terminal) - 1) * lk.fc * 1e-8 / 3 = urbanBreak 10 lk := by
    unfold urbanBreak urbanTerminal
    ring
  simp only [microLoss, broken, e]
  norm_num [urbanTerminal]

/-- C120: blocked links never lose less than free ones. -/
theorem C120_blocked (lk : Link) (open_ : Bool) (f : Factory) :
    urbanMacro.loss 0 lk ≤ urbanMacro.loss 1 lk ∧ urbanMicro.loss 0 lk ≤ urbanMicro.loss 1 lk ∧
      rural.loss 0 lk ≤ rural.loss 1 lk ∧ (office open_).loss 0 lk ≤ (office open_).loss 1 lk ∧
      f.scenario.loss 0 lk ≤ f.scenario.loss 1 lk := by
  refine ⟨?_, ?_, ?_, ?_, ?_⟩
  · simp [urbanMacro, macroLoss]
  · simp [urbanMicro, microLoss]
  · simp [rural, ruralLoss]
  · simp [office, officeLoss]
  · simp only [Factory.scenario, factoryLoss]
    cases f.type <;> simp

theorem lg_150 : lg 150 ≤ 3 := by
  have : lg (10 ^ 3) = 3 := by
    unfold lg
    rw [Real.logb_pow, Real.logb_self_eq_one (by norm_num)]
    norm_num
  rw [← this]
  exact lg_le (by norm_num) (by norm_num)

theorem ruralBefore_le (lk lk' : Link) (g : Geometric lk) (g' : Geometric lk') (h : Farther lk lk') :
    ruralBefore lk + 20 * lg (lk'.d3 / lk.d3) ≤ ruralBefore lk' := by
  have h3 := h.d3 g g'
  have hl := lg_le g.apart h3
  have hp := Real.pi_pos
  have e : ∀ l : Link, Geometric l → lg (40 * Real.pi * l.d3 * l.fc * 1e-9 / 3) = lg (40 * Real.pi * l.fc * 1e-9 / 3) + lg l.d3 := by
    intro l gl
    have h1 := gl.carrier
    rw [← lg_mul (by positivity) gl.apart]
    congr 1
    ring
  have hmin : 0 ≤ min (0.03 * (5 : ℝ) ^ (1.72 : ℝ)) 10 := by positivity
  have h5 : 0 ≤ lg 5 := lg_nonneg (by norm_num)
  unfold ruralBefore
  rw [e lk g, e lk' g', h.fc, lg_div g'.apart g.apart]
  nlinarith

/-- C120: path losses do not decrease when terminals move away horizontally, with and without line of sight.  In urban
scenarios, the base has to be as high above the terminal as the scenario assumes.  Missing: other heights. -/
theorem C120_distance_partial (lk lk' : Link) (g : Geometric lk) (g' : Geometric lk') (h : Farther lk lk') (s : State)
    (hs : s < 2) (open_ : Bool) (f : Factory) :
    ((25 - urbanTerminal lk) ^ 2 ≤ (lk.base - lk.terminal) ^ 2 → urbanMacro.loss s lk ≤ urbanMacro.loss s lk') ∧
      ((10 - urbanTerminal lk) ^ 2 ≤ (lk.base - lk.terminal) ^ 2 → urbanMicro.loss s lk ≤ urbanMicro.loss s lk') ∧
      rural.loss s lk ≤ rural.loss s lk' ∧ (office open_).loss s lk ≤ (office open_).loss s lk' ∧
      f.scenario.loss s lk ≤ f.scenario.loss s lk' := by
  have h3 := h.d3 g g'
  have hl := lg_le g.apart h3
  have hU : urbanTerminal lk' = urbanTerminal lk := by unfold urbanTerminal; rw [h.terminal]
  have hbr : ∀ hB, urbanBreak hB lk' = urbanBreak hB lk := by intro hB; unfold urbanBreak; rw [hU, h.fc]
  refine ⟨fun hg => ?_, fun hg => ?_, ?_, ?_, ?_⟩
  · have hlos : macroLoss 0 lk ≤ macroLoss 0 lk' := by
      rw [macro_los, macro_los, hU, hbr, h.fc]
      exact broken_le _ _ _ _ _ (by norm_num) (by norm_num) (urbanBreak_pos 25 (by norm_num) lk g.carrier) lk lk' g g' h hg
    interval_cases s
    · exact hlos
    · have e : ∀ l, macroLoss 1 l = max (macroLoss 0 l)
          (13.54 + 39.08 * lg l.d3 + 20 * lg (l.fc * 1e-9) - 0.6 * (urbanTerminal l - 1.5)) := by
        intro l; simp [macroLoss, urbanTerminal]
      show macroLoss 1 lk ≤ macroLoss 1 lk'
      rw [e, e, hU, h.fc]
      exact max_le_max hlos (by linarith)
  · have hlos : microLoss 0 lk ≤ microLoss 0 lk' := by
      rw [micro_los, micro_los, hU, hbr, h.fc]
      exact broken_le _ _ _ _ _ (by norm_num) (by norm_num) (urbanBreak_pos 10 (by norm_num) lk g.carrier) lk lk' g g' h hg
    interval_cases s
    · exact hlos
    · have e : ∀ l, microLoss 1 l = max (microLoss 0 l)
          (35.3 * lg l.d3 + 22.4 + 21.3 * lg (l.fc * 1e-9) - 0.3 * (urbanTerminal l - 1.5)) := by
        intro l; simp [microLoss, urbanTerminal]
      show microLoss 1 lk ≤ microLoss 1 lk'
      rw [e, e, hU, h.fc]
      exact max_le_max hlos (by linarith)
  · have hb : ruralBreak lk' = ruralBreak lk := by unfold ruralBreak; rw [h.base, h.terminal, h.fc]
    have hbefore : ruralBefore lk ≤ ruralBefore lk' := by
      have := ruralBefore_le lk lk' g g' h
      have h0 : 0 ≤ lg (lk'.d3 / lk.d3) := lg_nonneg ((one_le_div g.apart).mpr h3)
      linarith
    have hbp : 0 < ruralBreak lk := by
      have := g.carrier
      have := Real.pi_pos
      have h1 : (0 : ℝ) < min 150 (max 5 lk.base) := lt_min (by norm_num) (lt_max_of_lt_left (by norm_num))
      have h2 : (0 : ℝ) < min 10 (max 1 lk.terminal) := lt_min (by norm_num) (lt_max_of_lt_left (by norm_num))
      unfold ruralBreak
      positivity
    have hlos : ruralLoss 0 lk ≤ ruralLoss 0 lk' := by
      simp only [ruralLoss, hb]
      simp only [show (0 : State) ≠ 2 by decide, if_false, if_true]
      split
      · split
        · exact hbefore
        · rename_i h1 h2
          have : 0 ≤ lg (lk'.d3 / ruralBreak lk) := by
            apply lg_nonneg
            rw [one_le_div hbp]
            have := g'.pythagoras
            have := g'.flat
            have := g'.apart
            nlinarith [not_le.mp h2, sq_nonneg (lk'.base - lk'.terminal)]
          linarith
      · split
        · rename_i h1 h2
          exact absurd (le_trans h.d2 h2) h1
        · have := lg_le (div_pos g.apart hbp) (div_le_div_of_nonneg_right h3 hbp.le)
          linarith
    interval_cases s
    · exact hlos
    · have e : ∀ l, ruralLoss 1 l = max (ruralLoss 0 l)
          (161.04 - 7.1 * lg 20 + 7.5 * lg 5 - (24.37 - 3.7 * (5 / min 150 (max 5 l.base)) ^ 2) * lg (min 150 (max 5 l.base))
            + (43.42 - 3.1 * lg (min 150 (max 5 l.base))) * (lg l.d3 - 3) + 20 * lg (l.fc * 1e-9)
            - (3.2 * lg (11.75 * min 10 (max 1 l.terminal)) ^ 2 - 4.97)) := by
        intro l; simp [ruralLoss]
      show ruralLoss 1 lk ≤ ruralLoss 1 lk'
      rw [e, e, h.base, h.terminal, h.fc]
      refine max_le_max hlos ?_
      have : lg (min 150 (max 5 lk.base)) ≤ 3 :=
        le_trans (lg_le (lt_min (by norm_num) (lt_max_of_lt_left (by norm_num))) (min_le_left _ _)) lg_150
      nlinarith
  · have hlos : officeLoss 0 lk ≤ officeLoss 0 lk' := by
      simp only [officeLoss, if_true, h.fc]
      linarith
    interval_cases s
    · exact hlos
    · simp only [officeLoss, if_true] at hlos
      simp only [office, officeLoss, one_ne_zero, if_false, h.fc]
      rw [h.fc] at hlos
      exact max_le_max hlos (by linarith)
  · simp only [Factory.scenario, factoryLoss, h.fc]
    interval_cases s
    · simp only [if_true]; linarith
    · simp only [one_ne_zero, if_false]
      cases f.type <;> exact max_le_max (by linarith) (by linarith)

/-- C120: the path loss in the line of sight of urban scenarios is continuous at the break point if the base is as high
above the terminal as the scenario assumes. -/
theorem C120_break (lk : Link) (g : Geometric lk) :
    ((25 - urbanTerminal lk) ^ 2 = (lk.base - lk.terminal) ^ 2 → lk.d2 = urbanBreak 25 lk →
      urbanMacro.loss 0 lk = 28 + 22 * lg lk.d3 + 20 * lg (lk.fc * 1e-9)) ∧
    ((10 - urbanTerminal lk) ^ 2 = (lk.base - lk.terminal) ^ 2 → lk.d2 = urbanBreak 10 lk →
      urbanMicro.loss 0 lk = 32.4 + 21 * lg lk.d3 + 20 * lg (lk.fc * 1e-9)) := by
  constructor
  · intro h1 h2
    show macroLoss 0 lk = _
    rw [macro_los, broken, ← h2, if_neg (lt_irrefl _), h1, ← g.pythagoras, lg_sq]
    ring
  · intro h1 h2
    show microLoss 0 lk = _
    rw [micro_los, broken, ← h2, if_neg (lt_irrefl _), h1, ← g.pythagoras, lg_sq]
    ring

theorem broken_drop (A B bp gap c : ℝ) (hB : 0 < B) (hB' : B < 40) (hbp : 0 < bp) (lk : Link) (g : Geometric lk)
    (h2 : lk.d2 = bp) (hgap : (lk.base - lk.terminal) ^ 2 < gap ^ 2) :
    ∃ lk', Geometric lk' ∧ Farther lk' lk ∧ broken A B bp gap lk.d2 lk.d3 c < broken A B bp gap lk'.d2 lk'.d3 c := by
  set H := lk.base - lk.terminal with hH
  have hH0 : 0 ≤ H := by have := g.above; rw [hH]; linarith
  have hd := g.apart
  set T := (40 * lg lk.d3 - (40 - B) / 2 * lg (bp ^ 2 + gap ^ 2)) / B with hT
  have hq : 2 * lg lk.d3 < lg (bp ^ 2 + gap ^ 2) := by
    rw [← lg_sq]
    apply lg_lt (by positivity)
    rw [g.pythagoras, h2]
    linarith
  have hTl : T < lg lk.d3 := by
    rw [hT, div_lt_iff₀ hB]
    nlinarith
  have h10 : (10 : ℝ) ^ T < lk.d3 := by
    rw [← Real.lt_logb_iff_rpow_lt (by norm_num) hd]
    exact hTl
  have hHd : H < lk.d3 := by
    have := g.pythagoras
    rw [h2] at this
    nlinarith
  obtain ⟨e, he1, he2⟩ := exists_between (max_lt h10 hHd)
  have he0 : 0 < e := lt_of_le_of_lt (le_trans hH0 (le_max_right _ _)) he1
  have heH : H < e := lt_of_le_of_lt (le_max_right _ _) he1
  have hs : 0 ≤ e ^ 2 - H ^ 2 := by nlinarith
  have hlt : Real.sqrt (e ^ 2 - H ^ 2) < bp := by
    rw [Real.sqrt_lt' hbp]
    have := g.pythagoras
    rw [h2] at this
    nlinarith
  refine ⟨⟨lk.fc, e, Real.sqrt (e ^ 2 - H ^ 2), lk.base, lk.terminal⟩, ⟨?_, Real.sqrt_nonneg _, he0, g.above, g.carrier⟩,
    ⟨rfl, rfl, rfl, ?_⟩, ?_⟩
  · simp only
    rw [Real.sq_sqrt hs, ← hH]
    ring
  · simp only
    rw [h2]
    exact hlt.le
  · simp only [broken]
    rw [if_pos hlt, if_neg (by rw [h2]; exact lt_irrefl _)]
    have : T < lg e := by
      unfold lg
      rw [Real.lt_logb_iff_rpow_lt (by norm_num) he0]
      exact lt_of_le_of_lt (le_max_left _ _) he1
    rw [hT, div_lt_iff₀ hB] at this
    linarith

/-- C120 fails for bases less high above the terminal than urban scenarios assume: the path loss in the line of sight
drops at the break point, so that terminals receive more from farther away. -/
theorem C120_break_fails (lk : Link) (g : Geometric lk) :
    (lk.d2 = urbanBreak 25 lk → (lk.base - lk.terminal) ^ 2 < (25 - urbanTerminal lk) ^ 2 →
      ∃ lk', Geometric lk' ∧ Farther lk' lk ∧ urbanMacro.loss 0 lk < urbanMacro.loss 0 lk') ∧
    (lk.d2 = urbanBreak 10 lk → (lk.base - lk.terminal) ^ 2 < (10 - urbanTerminal lk) ^ 2 →
      ∃ lk', Geometric lk' ∧ Farther lk' lk ∧ urbanMicro.loss 0 lk < urbanMicro.loss 0 lk') := by
  constructor
  · intro h1 h2
    obtain ⟨lk', g', f', h⟩ := broken_drop 28 22 (urbanBreak 25 lk) (25 - urbanTerminal lk) (20 * lg (lk.fc * 1e-9))
      (by norm_num) (by norm_num) (urbanBreak_pos 25 (by norm_num) lk g.carrier) lk g h1 h2
    refine ⟨lk', g', f', ?_⟩
    show macroLoss 0 lk < macroLoss 0 lk'
    have e1 : urbanTerminal lk' = urbanTerminal lk := by unfold urbanTerminal; rw [f'.terminal]
    have e2 : urbanBreak 25 lk' = urbanBreak 25 lk := by unfold urbanBreak; rw [e1, f'.fc]
    rw [macro_los, macro_los, e1, e2, ← f'.fc]
    exact h
  · intro h1 h2
    obtain ⟨lk', g', f', h⟩ := broken_drop 32.4 21 (urbanBreak 10 lk) (10 - urbanTerminal lk) (20 * lg (lk.fc * 1e-9))
      (by norm_num) (by norm_num) (urbanBreak_pos 10 (by norm_num) lk g.carrier) lk g h1 h2
    refine ⟨lk', g', f', ?_⟩
    show microLoss 0 lk < microLoss 0 lk'
    have e1 : urbanTerminal lk' = urbanTerminal lk := by unfold urbanTerminal; rw [f'.terminal]
    have e2 : urbanBreak 10 lk' = urbanBreak 10 lk := by unfold urbanBreak; rw [e1, f'.fc]
    rw [micro_los, micro_los, e1, e2, ← f'.fc]
    exact h

/-- C120 fails for the rural path loss beyond the break point, which should grow by forty decibel per decade: it grows
by at least sixty, since the loss before the break point keeps growing instead of staying what it was there. -/
theorem C120_rural_fails (lk lk' : Link) (g : Geometric lk) (g' : Geometric lk') (h : Farther lk lk')
    (hb : ruralBreak lk < lk.d2) : rural.loss 0 lk + 60 * lg (lk'.d3 / lk.d3) ≤ rural.loss 0 lk' := by
  have hbr : ruralBreak lk' = ruralBreak lk := by unfold ruralBreak; rw [h.base, h.terminal, h.fc]
  have hbp : 0 < ruralBreak lk := by
    have := g.carrier
    have := Real.pi_pos
    have h1 : (0 : ℝ) < min 150 (max 5 lk.base) := lt_min (by norm_num) (lt_max_of_lt_left (by norm_num))
    have h2 : (0 : ℝ) < min 10 (max 1 lk.terminal) := lt_min (by norm_num) (lt_max_of_lt_left (by norm_num))
    unfold ruralBreak
    positivity
  have := ruralBefore_le lk lk' g g' h
  show ruralLoss 0 lk + _ ≤ ruralLoss 0 lk'
  simp only [ruralLoss, hbr]
  simp only [show (0 : State) ≠ 2 by decide, if_false, if_true]
  rw [if_neg (not_le.mpr hb), if_neg (not_le.mpr (lt_of_lt_of_le hb h.d2)), lg_div g.apart hbp, lg_div g'.apart hbp]
  rw [lg_div g'.apart g.apart] at *
  linarith

/-- C120: the line of sight path loss is the standard one of rural macrocells up to the break point. -/
theorem C120_rural_partial (lk : Link) (g : Geometric lk) (hb : lk.d2 ≤ ruralBreak lk) :
    rural.loss 0 lk = 20 * lg (40 * Real.pi * lk.d3 * (lk.fc / 1e9) / 3) + min (0.03 * (5 : ℝ) ^ (1.72 : ℝ)) 10 * lg lk.d3
      - min (0.044 * (5 : ℝ) ^ (1.72 : ℝ)) 14.77 + 0.002 * lg 5 * lk.d3 ∧
    lk.d2 ≤ 2 * Real.pi * min 150 (max 5 lk.base) * min 10 (max 1 lk.terminal) * lk.fc / 3e8 := by
  have _ := g
  constructor
  · show ruralLoss 0 lk = _
    simp only [ruralLoss]
    simp only [show (0 : State) ≠ 2 by decide, if_false, if_true]
    rw [if_pos hb, ruralBefore]
    have : 40 * Real.pi * lk.d3 * (lk.fc / 1e9) / 3 = 40 * Real.pi * lk.d3 * lk.fc * 1e-9 / 3 := by ring
    rw [this]
  · refine le_trans hb (le_of_eq ?_)
    unfold ruralBreak
    ring

/-- C120 fails for terminals inside buildings: they are never drawn, and have no path loss at all, less than terminals in
the line of sight. -/
theorem C120_indoor_fails (u : ℝ) (lk : Link) :
    (urbanMacro.choose u lk < 2 ∧ urbanMicro.choose u lk < 2 ∧ rural.choose u lk < 2) ∧
    (urbanMacro.loss 2 lk = 0 ∧ urbanMicro.loss 2 lk = 0 ∧ rural.loss 2 lk = 0) ∧
    (1 ≤ lk.d3 → 1e9 ≤ lk.fc → (lk.d2 < urbanBreak 25 lk → 0 < urbanMacro.loss 0 lk) ∧
      (lk.d2 < urbanBreak 10 lk → 0 < urbanMicro.loss 0 lk)) := by
  refine ⟨⟨?_, ?_, ?_⟩, ⟨?_, ?_, ?_⟩, fun h1 h2 => ⟨fun h => ?_, fun h => ?_⟩⟩
  · simp only [urbanMacro, urbanChoose]; split <;> decide
  · simp only [urbanMicro, urbanChoose]; split <;> decide
  · simp only [rural, ruralChoose]; split <;> decide
  · simp [urbanMacro, macroLoss]
  · simp [urbanMicro, microLoss]
  · simp [rural, ruralLoss]
  · show 0 < macroLoss 0 lk
    rw [macro_los, broken, if_pos h]
    have a := lg_nonneg h1
    have b := lg_nonneg (x := lk.fc * 1e-9) (by linarith)
    linarith
  · show 0 < microLoss 0 lk
    rw [micro_los, broken, if_pos h]
    have a := lg_nonneg h1
    have b := lg_nonneg (x := lk.fc * 1e-9) (by linarith)
    linarith

/-! Hypotheses are met. -/

/-- A link of devices at heights of `hB` and `hU` at a distance of `d`. -/
noncomputable def someLink (fc hB hU d : ℝ) : Link := ⟨fc, Real.sqrt (d ^ 2 + (hB - hU) ^ 2), d, hB, hU⟩

theorem someLink_geometric (fc hB hU d : ℝ) (hfc : 0 < fc) (hd : 0 < d) (h : hU ≤ hB) : Geometric (someLink fc hB hU d) where
  pythagoras := Real.sq_sqrt (by positivity)
  flat := hd.le
  apart := Real.sqrt_pos.mpr (by positivity)
  above := h
  carrier := hfc

example : Farther (someLink 1e9 25 1.5 10) (someLink 1e9 25 1.5 100) := ⟨rfl, rfl, rfl, by norm_num [someLink]⟩

example : (25 - urbanTerminal (someLink 1e9 25 1.5 10)) ^ 2 ≤ ((someLink 1e9 25 1.5 10).base - (someLink 1e9 25 1.5 10).terminal) ^ 2 := by
  norm_num [urbanTerminal, someLink]

/-- Devices on the ground at the break point. -/
example : (someLink 1e9 1.5 1.5 160).d2 = urbanBreak 25 (someLink 1e9 1.5 1.5 160) ∧
    ((someLink 1e9 1.5 1.5 160).base - (someLink 1e9 1.5 1.5 160).terminal) ^ 2 <
      (25 - urbanTerminal (someLink 1e9 1.5 1.5 160)) ^ 2 := by
  norm_num [urbanTerminal, someLink, urbanBreak]

example : ruralBreak (someLink 1e9 35 1.5 10000) < (someLink 1e9 35 1.5 10000).d2 := by
  have := Real.pi_lt_d2
  norm_num [ruralBreak, someLink]
  linarith

end Verif.CdlScenario
