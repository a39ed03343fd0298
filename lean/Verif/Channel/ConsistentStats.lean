import Mathlib.Topology.Order.LeftRightLim
import Verif.Channel.ConsistentProps

/-!
# Spatially consistent random variables: distributions (C74)
-/

namespace Verif.Consistent

open MeasureTheory ProbabilityTheory Filter Topology

/-! ### Radial velocities -/

/-- The distribution function up to scaling of the argument. -/
noncomputable def core (t : ℝ) : ℝ := Real.arctan t - t / (1 + t ^ 2)

theorem core_hasDeriv (t : ℝ) : HasDerivAt core (2 * t ^ 2 / (1 + t ^ 2) ^ 2) t := by
  have h0 : (1 + t ^ 2) ≠ 0 := by positivity
  have h1 : HasDerivAt (fun t : ℝ => t / (1 + t ^ 2)) ((1 * (1 + t ^ 2) - t * (2 * t)) / (1 + t ^ 2) ^ 2) t := by
    have hd : HasDerivAt (fun t : ℝ => 1 + t ^ 2) (2 * t) t := by
      simpa using (hasDerivAt_pow 2 t).const_add 1
    exact (hasDerivAt_id t).div hd h0
  have h2 := (Real.hasDerivAt_arctan t).sub h1
  refine h2.congr_deriv ?_
  field_simp
  ring

theorem core_continuous : Continuous core :=
  continuous_iff_continuousAt.mpr fun t => (core_hasDeriv t).continuousAt

theorem core_strictMono : StrictMonoOn core (Set.Ici 0) := by
  refine strictMonoOn_of_deriv_pos (convex_Ici 0) core_continuous.continuousOn fun t ht => ?_
  rw [interior_Ici, Set.mem_Ioi] at ht
  rw [(core_hasDeriv t).deriv]
  positivity

theorem core_zero : core 0 = 0 := by simp [core]

theorem core_neg (t : ℝ) : core (-t) = -core t := by
  unfold core; rw [Real.arctan_neg]; ring

theorem core_tendsto : Tendsto core atTop (𝓝 (Real.pi / 2)) := by
  have h1 : Tendsto Real.arctan atTop (𝓝 (Real.pi / 2)) :=
    tendsto_nhds_of_tendsto_nhdsWithin Real.tendsto_arctan_atTop
  have h2 : Tendsto (fun t : ℝ => t / (1 + t ^ 2)) atTop (𝓝 0) := by
    refine squeeze_zero' (g := fun t : ℝ => t⁻¹) ?_ ?_ tendsto_inv_atTop_zero
    · filter_upwards [eventually_ge_atTop 0] with t ht; positivity
    · filter_upwards [eventually_gt_atTop 0] with t ht
      rw [div_le_iff₀ (by positivity), inv_mul_eq_div, le_div_iff₀ ht]
      nlinarith
  have := h1.sub h2
  rw [sub_zero] at this
  exact this

theorem radialCdf_eq (x a u : ℝ) (ha : a ≠ 0) :
    radialCdf x a u = 2 / Real.pi * core (2 * Real.pi * x / a) - u := by
  have hp := Real.pi_ne_zero
  have h1 : (4 * Real.pi ^ 2 * x ^ 2 + a ^ 2) ≠ 0 := by positivity
  have h2 : 1 + (2 * Real.pi * x / a) ^ 2 ≠ 0 := by positivity
  have : 4 * a * x / (4 * Real.pi ^ 2 * x ^ 2 + a ^ 2) =
      2 / Real.pi * ((2 * Real.pi * x / a) / (1 + (2 * Real.pi * x / a) ^ 2)) := by
    have e : 1 + (2 * Real.pi * x / a) ^ 2 = (4 * Real.pi ^ 2 * x ^ 2 + a ^ 2) / a ^ 2 := by
      field_simp; ring
    rw [e]
    field_simp
    ring
  unfold radialCdf core
  rw [this]; ring

theorem upper_ok {a u m : ℝ} (ha : 0 < a) (hu : u < 1) (hm : 0 < m) :
    ∃ hi, upper a u m = .ok hi ∧ 0 < hi ∧ 0 ≤ radialCdf hi a u := by
  have hex : ∃ n : Nat, ¬ radialCdf (m * 2 ^ n) a u < 0 := by
    have hp := Real.pi_pos
    have ht : Tendsto (fun n : Nat => 2 * Real.pi * (m * 2 ^ n) / a) atTop atTop := by
      have : Tendsto (fun n : Nat => (2 : ℝ) ^ n) atTop atTop := tendsto_pow_atTop_atTop_of_one_lt (by norm_num)
      have := this.const_mul_atTop (r := 2 * Real.pi * m / a) (by positivity)
      refine this.congr fun n => ?_
      ring
    have h2 := (core_tendsto.comp ht).const_mul (2 / Real.pi)
    have h3 : 2 / Real.pi * (Real.pi / 2) = 1 := by field_simp
    rw [h3] at h2
    obtain ⟨n, hn⟩ := (h2.eventually (lt_mem_nhds hu)).exists
    refine ⟨n, ?_⟩
    rw [radialCdf_eq _ _ _ ha.ne']
    simp only [Function.comp] at hn
    linarith
  refine ⟨m * 2 ^ Nat.find hex, ?_, by positivity, not_lt.mp (Nat.find_spec hex)⟩
  unfold upper
  rw [dif_pos hex]

theorem radialCdf_zero (a u : ℝ) : radialCdf 0 a u = -u := by simp [radialCdf]

theorem bisect_ok {a u hi : ℝ} (ha : 0 < a) (hu : 0 ≤ u) (hhi : 0 < hi) (h : 0 ≤ radialCdf hi a u) :
    ∃ x, bisect a u hi = .ok x ∧ 0 ≤ x ∧ radialCdf x a u = 0 := by
  have hc : Continuous fun x => radialCdf x a u := by
    have : (fun x => radialCdf x a u) = fun x => 2 / Real.pi * core (2 * Real.pi * x / a) - u :=
      funext fun x => radialCdf_eq x a u ha.ne'
    rw [this]
    have := core_continuous
    fun_prop
  have hex : ∃ x, 0 ≤ x ∧ x ≤ hi ∧ radialCdf x a u = 0 := by
    have := intermediate_value_Icc hhi.le hc.continuousOn
    have hmem : (0 : ℝ) ∈ Set.Icc (radialCdf 0 a u) (radialCdf hi a u) := by
      rw [radialCdf_zero]; exact ⟨by linarith, h⟩
    obtain ⟨x, ⟨h1, h2⟩, h3⟩ := this hmem
    exact ⟨x, h1, h2, h3⟩
  refine ⟨hex.choose, ?_, hex.choose_spec.1, hex.choose_spec.2.2⟩
  unfold bisect
  rw [if_neg, dif_pos hex]
  rw [radialCdf_zero]
  nlinarith

theorem solveLoop_ok {a : ℝ} (ha : 0 < a) : ∀ (us : List ℝ) (m : ℝ), 0 < m → (∀ u ∈ us, 0 ≤ u ∧ u < 1) →
    ∃ xs, solveLoop a us m = .ok xs ∧ List.Forall₂ (fun u x => 0 ≤ x ∧ radialCdf x a u = 0) us xs
  | [], m, _, _ => ⟨[], rfl, .nil⟩
  | u :: us, m, hm, h => by
    obtain ⟨hi, h1, h2, h3⟩ := upper_ok ha (h u (by simp)).2 hm
    obtain ⟨x, h4, h5, h6⟩ := bisect_ok ha (h u (by simp)).1 h2 h3
    obtain ⟨xs, h7, h8⟩ := solveLoop_ok ha us hi h2 fun v hv => h v (by simp [hv])
    exact ⟨x :: xs, by simp only [solveLoop, h1, h4, h7], .cons ⟨h5, h6⟩ h8⟩

/-- The distribution function of the radial velocities for a decorrelation distance `d`, in closed form. -/
noncomputable def velocityLaw (d x : ℝ) : ℝ :=
  2 / Real.pi * Real.arctan (2 * Real.pi * d * x) - 4 * d * x / (1 + 4 * Real.pi ^ 2 * d ^ 2 * x ^ 2)

theorem velocityLaw_eq (d x : ℝ) : velocityLaw d x = 2 / Real.pi * core (2 * Real.pi * d * x) := by
  have hp := Real.pi_ne_zero
  have h1 : (1 + 4 * Real.pi ^ 2 * d ^ 2 * x ^ 2) ≠ 0 := by positivity
  have e : (1 + (2 * Real.pi * d * x) ^ 2) = 1 + 4 * Real.pi ^ 2 * d ^ 2 * x ^ 2 := by ring
  unfold velocityLaw core
  rw [e, mul_sub]
  congr 1
  field_simp
  ring

theorem radialCdf_law (d x u : ℝ) (hd : d ≠ 0) : radialCdf x (1 / d) u = velocityLaw d x - u := by
  rw [radialCdf_eq _ _ _ (by simpa using hd), velocityLaw_eq]
  have : 2 * Real.pi * x / (1 / d) = 2 * Real.pi * d * x := by field_simp
  rw [this]

theorem candidates_get (n k : Nat) (hk : k < (candidates n).length) : (candidates n)[k] = (k : ℝ) / n := by
  simp [candidates]

theorem solveCdf_ok (d : ℝ) (hd : 0 < d) (n : Nat) : ∃ v, solveCdf d n = .ok v ∧ v.length = n ∧
    ∀ k (hk : k < v.length), 0 ≤ v[k] ∧ velocityLaw d v[k] = k / n := by
  obtain ⟨xs, h1, h2⟩ := solveLoop_ok (a := 1 / d) (by positivity) (candidates n) 1 one_pos (by
    intro u hu
    obtain ⟨k, hk, rfl⟩ := List.mem_map.mp hu
    rw [List.mem_range] at hk
    have : (k : ℝ) < n := by exact_mod_cast hk
    have hn : (0 : ℝ) < n := lt_of_le_of_lt (Nat.cast_nonneg k) this
    exact ⟨by positivity, (div_lt_one hn).mpr this⟩)
  refine ⟨xs, by rw [solveCdf, if_neg hd.ne', h1], ?_, fun k hk => ?_⟩
  · rw [← h2.length_eq]; simp [candidates]
  · have hk' : k < (candidates n).length := by rw [h2.length_eq]; exact hk
    have := List.Forall₂.get h2 hk' hk
    simp only [List.get_eq_getElem] at this
    refine ⟨this.1, ?_⟩
    have h3 := this.2
    rw [radialCdf_law _ _ _ hd.ne'] at h3
    rw [candidates_get] at h3
    linarith

/-- **C74 (velocities).** For every positive decorrelation distance the search for radial velocities ends, and
its results are the quantiles of their law: the `k`-th of `n` candidates is the only non-negative solution of
`law x = k / n`. They start at zero and increase strictly. -/
theorem C74_velocity (d : ℝ) (hd : 0 < d) (n : Nat) :
    ∃ v, solveCdf d n = .ok v ∧ v.length = n ∧
      (∀ k (hk : k < v.length), 0 ≤ v[k] ∧ velocityLaw d v[k] = k / n ∧
        ∀ x, 0 ≤ x → velocityLaw d x = k / n → x = v[k]) ∧
      (∀ h : 0 < v.length, v[0] = 0) ∧ v.Pairwise (· < ·) := by
  obtain ⟨v, h1, h2, h3⟩ := solveCdf_ok d hd n
  have hp := Real.pi_pos
  have mono : StrictMonoOn (velocityLaw d) (Set.Ici 0) := by
    intro x hx y hy hxy
    rw [velocityLaw_eq, velocityLaw_eq]
    rw [Set.mem_Ici] at hx hy
    refine mul_lt_mul_of_pos_left (core_strictMono ?_ ?_ ?_) (by positivity)
    · rw [Set.mem_Ici]; positivity
    · rw [Set.mem_Ici]; positivity
    · exact mul_lt_mul_of_pos_left hxy (by positivity)
  refine ⟨v, h1, h2, fun k hk => ⟨(h3 k hk).1, (h3 k hk).2, fun x hx he => ?_⟩, fun h => ?_, ?_⟩
  · exact mono.injOn hx (h3 k hk).1 (he.trans (h3 k hk).2.symm)
  · refine mono.injOn (h3 0 h).1 (Set.mem_Ici.mpr le_rfl) ?_
    rw [(h3 0 h).2, velocityLaw_eq]
    simp [core_zero]
  · rw [List.pairwise_iff_getElem]
    intro i j hi hj hij
    have hn : (0 : ℝ) < n := by exact_mod_cast (by omega : 0 < n)
    refine (mono.lt_iff_lt (h3 i hi).1 (h3 j hj).1).mp ?_
    rw [(h3 i hi).2, (h3 j hj).2]
    gcongr

/-- The law rises from zero to one. -/
theorem C74_velocity_law (d : ℝ) (hd : 0 < d) :
    velocityLaw d 0 = 0 ∧ StrictMonoOn (velocityLaw d) (Set.Ici 0) ∧ Tendsto (velocityLaw d) atTop (𝓝 1) := by
  have hp := Real.pi_pos
  refine ⟨by simp [velocityLaw], ?_, ?_⟩
  · intro x hx y hy hxy
    rw [velocityLaw_eq, velocityLaw_eq]
    rw [Set.mem_Ici] at hx hy
    refine mul_lt_mul_of_pos_left (core_strictMono ?_ ?_ ?_) (by positivity)
    · rw [Set.mem_Ici]; positivity
    · rw [Set.mem_Ici]; positivity
    · exact mul_lt_mul_of_pos_left hxy (by positivity)
  · have ht : Tendsto (fun x : ℝ => 2 * Real.pi * d * x) atTop atTop :=
      tendsto_id.const_mul_atTop (by positivity)
    have h2 := (core_tendsto.comp ht).const_mul (2 / Real.pi)
    have h3 : 2 / Real.pi * (Real.pi / 2) = 1 := by field_simp
    rw [h3] at h2
    exact h2.congr fun x => (velocityLaw_eq d x).symm

/-- **C74 (distances), violated.** A decorrelation distance of zero, which channels accept
(`fading/fading.py` 765-769), is a division by zero once the channel is realized; a negative distance ends in
an overflow. -/
theorem C74_distance_fails (num sinusoids : Nat) (draws : Draws) :
    (realize [] num (some 0) sinusoids draws).2 = .error .zeroDivision ∧
    ∀ d < 0, (realize [] num (some d) sinusoids draws).2 = .error .overflow := by
  have get : ∀ k, Cache.get [] k = none := fun _ => rfl
  refine ⟨by simp [realize, sampleCdf, get, solveCdf], fun d hd => ?_⟩
  have hu : upper (1 / d) 0 1 = .error .overflow := by
    unfold upper
    rw [dif_neg]
    push Not
    intro n
    have hp := Real.pi_pos
    rw [radialCdf_law _ _ _ hd.ne, velocityLaw_eq, sub_zero]
    have : 2 * Real.pi * d * (1 * 2 ^ n) = -(2 * Real.pi * (-d) * 2 ^ n) := by ring
    rw [this, core_neg]
    have hpos : 0 < core (2 * Real.pi * (-d) * 2 ^ n) := by
      have hd' : 0 < -d := by linarith
      rw [← core_zero]
      exact core_strictMono (Set.mem_Ici.mpr le_rfl) (Set.mem_Ici.mpr (by positivity)) (by positivity)
    have : 0 < 2 / Real.pi := by positivity
    nlinarith
  have hc : candidates 1000 = 0 :: ((List.range 999).map fun k : Nat => ((k + 1 : Nat) : ℝ) / (1000 : Nat)) := by
    unfold candidates
    rw [List.range_succ_eq_map]
    simp [List.map_map, Function.comp_def]
  have : solveCdf d 1000 = .error .overflow := by
    rw [solveCdf, if_neg hd.ne, hc]
    simp only [solveLoop, hu]
  simp [realize, sampleCdf, get, this]

/-! ### The cache -/

/-- A history of queries. -/
noncomputable def queries : Cache → List (ℝ × Nat) → List (Except PyErr (List ℝ))
  | _, [] => []
  | c, q :: qs => (sampleCdf c q.1 q.2).2 :: queries (sampleCdf c q.1 q.2).1 qs

/-- Every entry holds what would be computed. -/
def Faithful (c : Cache) : Prop := ∀ e ∈ c, solveCdf e.1.1 e.1.2 = .ok e.2

theorem sampleCdf_faithful {c : Cache} (hc : Faithful c) (d : ℝ) (n : Nat) :
    Faithful (sampleCdf c d n).1 ∧ (sampleCdf c d n).2 = solveCdf d n := by
  unfold sampleCdf
  split
  · rename_i v hv
    refine ⟨hc, ?_⟩
    unfold Cache.get at hv
    obtain ⟨e, he, rfl⟩ := Option.map_eq_some_iff.mp hv
    have hmem := List.mem_of_find?_eq_some he
    have hk := List.find?_some he
    simp only [decide_eq_true_eq] at hk
    have := hc e hmem
    rw [hk] at this
    exact this.symm
  · split
    · rename_i e he
      exact ⟨hc, he.symm⟩
    · rename_i v hv
      refine ⟨fun e he => ?_, hv.symm⟩
      rcases List.mem_cons.mp he with rfl | he
      · exact hv
      · exact hc e he

/-- **C74 (cache).** Whatever was asked before, and by whichever generator, cached candidates equal computed
ones. -/
theorem C74_cache (qs : List (ℝ × Nat)) : queries [] qs = qs.map fun q => solveCdf q.1 q.2 := by
  have key : ∀ (qs : List (ℝ × Nat)) (c : Cache), Faithful c → queries c qs = qs.map fun q => solveCdf q.1 q.2 := by
    intro qs
    induction qs with
    | nil => intros; rfl
    | cons q qs ih =>
      intro c hc
      obtain ⟨h1, h2⟩ := sampleCdf_faithful hc q.1 q.2
      simp only [queries, List.map_cons, h2, ih _ h1]
  exact key qs [] (by simp [Faithful])

/-! ### Consistency in space -/

/-- Euclidean distance. -/
noncomputable def distance (a b : Fin 3 → ℝ) : ℝ := Real.sqrt (∑ i, (a i - b i) ^ 2)

theorem direction_unit (az ze : ℝ) : ∑ i, direction az ze i ^ 2 = 1 := by
  simp only [direction, Fin.sum_univ_three, Matrix.cons_val_zero, Matrix.cons_val_one, Matrix.cons_val]
  nlinarith [Real.sin_sq_add_cos_sq az, Real.sin_sq_add_cos_sq ze]

theorem dot_sub (a b x : Fin 3 → ℝ) : dot a x - dot b x = ∑ i, (a i - b i) * x i := by
  unfold dot
  rw [← Finset.sum_sub_distrib]
  exact Finset.sum_congr rfl fun i _ => by ring

theorem dot_bound (a b : Fin 3 → ℝ) (s az ze : ℝ) :
    |dot a (fun i => s * direction az ze i) - dot b (fun i => s * direction az ze i)| ≤ |s| * distance a b := by
  rw [dot_sub]
  have : ∑ i, (a i - b i) * (s * direction az ze i) = s * ∑ i, (a i - b i) * direction az ze i := by
    rw [Finset.mul_sum]; exact Finset.sum_congr rfl fun i _ => by ring
  rw [this, abs_mul]
  refine mul_le_mul_of_nonneg_left ?_ (abs_nonneg s)
  have h := Finset.sum_mul_sq_le_sq_mul_sq Finset.univ (fun i => a i - b i) (direction az ze)
  rw [direction_unit, mul_one] at h
  unfold distance
  rw [← Real.sqrt_sq_eq_abs]
  exact Real.sqrt_le_sqrt h

theorem sqrt_two_div (N : Nat) (hN : 0 < N) : Real.sqrt (2 / N) * N = Real.sqrt (2 * N) := by
  have h : (0 : ℝ) < N := by exact_mod_cast hN
  rw [show (2 * N : ℝ) = 2 / N * N ^ 2 by field_simp, Real.sqrt_mul (by positivity), Real.sqrt_sq h.le]

/-- **C74 (consistency in space).** For every positive decorrelation distance there is one constant such that
every realization, whatever was drawn, varies between any two pairs of positions by at most this constant times
the displacement of both ends (times the square root of the number of sinusoids). Samples never exceed
`√(2 N)`. -/
theorem C74_consistent (d : ℝ) (hd : 0 < d) :
    ∃ V : ℝ, 0 ≤ V ∧ ∀ (num N : Nat) (draws : Draws), 0 < N →
      ∃ r, (realize [] num (some d) N draws).2 = .ok r ∧
        ∀ a b a' b' : Fin 3 → ℝ, ∃ xs ys, r.sample a b = .ok xs ∧ r.sample a' b' = .ok ys ∧
          xs.length = num ∧ ys.length = num ∧
          ∀ k (hx : k < xs.length) (hy : k < ys.length), |xs[k]| ≤ Real.sqrt (2 * N) ∧
            |xs[k] - ys[k]| ≤ Real.sqrt (2 * N) * V * (distance a a' + distance b b') := by
  obtain ⟨v, h1, h2, h3⟩ := solveCdf_ok d hd 1000
  have hp := Real.pi_pos
  have hbound : ∃ B : ℝ, 0 ≤ B ∧ ∀ i, |v.getD i 0| ≤ B := by
    refine ⟨(v.map fun x => |x|).sum, List.sum_nonneg (by simp), fun i => ?_⟩
    by_cases hi : i < v.length
    · rw [List.getD_eq_getElem?_getD, List.getElem?_eq_getElem hi, Option.getD_some]
      refine List.single_le_sum (by simp) _ ?_
      exact List.mem_map.mpr ⟨v[i], List.getElem_mem hi, rfl⟩
    · rw [List.getD_eq_getElem?_getD, List.getElem?_eq_none (by omega)]
      simpa using List.sum_nonneg (l := v.map fun x => |x|) (by simp)
  obtain ⟨B, hB0, hB⟩ := hbound
  refine ⟨2 * Real.pi * B, by positivity, fun num N draws hN => ?_⟩
  have hr : (realize [] num (some d) N draws).2 = .ok (.dual num N
        (fun k n e i => 2 * Real.pi * v.getD (draws.choice k n e) 0 *
          direction (draws.azimuth k n e) (Real.arccos (1 - draws.zenith k n e)) i) draws.phase) := by
    have get : ∀ k, Cache.get [] k = none := fun _ => rfl
    simp only [realize, sampleCdf, get, h1]
  refine ⟨_, hr, fun a b a' b' => ?_⟩
  have hs : ∀ a b : Fin 3 → ℝ, Realization.sample (.dual num N
        (fun k n e i => 2 * Real.pi * v.getD (draws.choice k n e) 0 *
          direction (draws.azimuth k n e) (Real.arccos (1 - draws.zenith k n e)) i) draws.phase) a b = _ :=
    fun a b => if_neg (by omega)
  refine ⟨_, _, hs a b, hs a' b', by simp, by simp, fun k hx hy => ?_⟩
  simp only [List.getElem_map, List.getElem_range]
  constructor
  · rw [abs_mul, abs_of_nonneg (Real.sqrt_nonneg _), ← sqrt_two_div N hN]
    refine mul_le_mul_of_nonneg_left ?_ (Real.sqrt_nonneg _)
    refine (Finset.abs_sum_le_sum_abs _ _).trans ?_
    refine (Finset.sum_le_sum fun n _ => Real.abs_cos_le_one _).trans ?_
    simp
  · rw [← mul_sub, ← Finset.sum_sub_distrib, abs_mul, abs_of_nonneg (Real.sqrt_nonneg _), ← sqrt_two_div N hN]
    rw [mul_assoc, mul_assoc]
    refine mul_le_mul_of_nonneg_left ?_ (Real.sqrt_nonneg _)
    refine (Finset.abs_sum_le_sum_abs _ _).trans ?_
    have : ∀ n ∈ Finset.range N, |Real.cos (dot a (fun i => 2 * Real.pi * v.getD (draws.choice k n 0) 0 *
          direction (draws.azimuth k n 0) (Real.arccos (1 - draws.zenith k n 0)) i) +
        dot b (fun i => 2 * Real.pi * v.getD (draws.choice k n 1) 0 *
          direction (draws.azimuth k n 1) (Real.arccos (1 - draws.zenith k n 1)) i) + draws.phase k n) -
        Real.cos (dot a' (fun i => 2 * Real.pi * v.getD (draws.choice k n 0) 0 *
          direction (draws.azimuth k n 0) (Real.arccos (1 - draws.zenith k n 0)) i) +
        dot b' (fun i => 2 * Real.pi * v.getD (draws.choice k n 1) 0 *
          direction (draws.azimuth k n 1) (Real.arccos (1 - draws.zenith k n 1)) i) + draws.phase k n)| ≤
        2 * Real.pi * B * (distance a a' + distance b b') := by
      intro n _
      have hcos : ∀ x y : ℝ, |Real.cos x - Real.cos y| ≤ |x - y| := by
        intro x y
        have := Real.lipschitzWith_cos.dist_le_mul x y
        simpa [Real.dist_eq] using this
      refine (hcos _ _).trans ?_
      have e1 := dot_bound a a' (2 * Real.pi * v.getD (draws.choice k n 0) 0) (draws.azimuth k n 0)
        (Real.arccos (1 - draws.zenith k n 0))
      have e2 := dot_bound b b' (2 * Real.pi * v.getD (draws.choice k n 1) 0) (draws.azimuth k n 1)
        (Real.arccos (1 - draws.zenith k n 1))
      have b1 : ∀ i, |2 * Real.pi * v.getD i 0| ≤ 2 * Real.pi * B := by
        intro i
        rw [abs_mul, abs_of_pos (by positivity : (0 : ℝ) < 2 * Real.pi)]
        exact mul_le_mul_of_nonneg_left (hB i) (by positivity)
      have d1 : 0 ≤ distance a a' := Real.sqrt_nonneg _
      have d2 : 0 ≤ distance b b' := Real.sqrt_nonneg _
      have m1 := e1.trans (mul_le_mul_of_nonneg_right (b1 _) d1)
      have m2 := e2.trans (mul_le_mul_of_nonneg_right (b1 _) d2)
      rw [mul_add]
      refine le_trans ?_ (add_le_add m1 m2)
      refine le_trans (le_of_eq ?_) (abs_add_le _ _)
      congr 1
      ring
    refine (Finset.sum_le_sum this).trans ?_
    simp

/-- **C74 (infinite distance).** Without decorrelation the samples are the same everywhere. -/
theorem C74_static (num N : Nat) (draws : Draws) :
    ∃ r, (realize [] num none N draws).2 = .ok r ∧
      ∀ a b, r.sample a b = .ok ((List.range num).map draws.normal) :=
  ⟨_, rfl, fun _ _ => rfl⟩

/-- **C74 (exchange of both ends), violated.** Exchanging the positions of both ends changes the samples:
for every decorrelation distance there are draws and positions for which the sign is inverted. -/
theorem C74_exchange_fails (d : ℝ) (hd : 0 < d) :
    ∃ (draws : Draws) (r : Realization) (a b : Fin 3 → ℝ),
      (realize [] 1 (some d) 1 draws).2 = .ok r ∧
        r.sample a b = .ok [-Real.sqrt 2] ∧ r.sample b a = .ok [Real.sqrt 2] := by
  obtain ⟨v, h1, h2, h3, h4, h5⟩ := C74_velocity d hd 1000
  have hp := Real.pi_pos
  have hl0 : 0 < v.length := by omega
  have hl1 : 1 < v.length := by omega
  have hv0 : v.getD 0 0 = 0 := by
    rw [List.getD_eq_getElem?_getD, List.getElem?_eq_getElem hl0, Option.getD_some, h4 hl0]
  have hv1 : v.getD 1 0 = v[1] := by
    rw [List.getD_eq_getElem?_getD, List.getElem?_eq_getElem hl1, Option.getD_some]
  have hpos : (0 : ℝ) < v[1] := by
    have := List.pairwise_iff_getElem.mp h5 0 1 hl0 hl1 (by omega)
    rwa [h4 hl0] at this
  refine ⟨⟨fun _ => 0, fun _ _ e => if e = 0 then 1 else 0, fun _ _ _ => 0, fun _ _ _ => 0, fun _ _ => 0⟩,
    .dual 1 1 (fun _ _ e i => 2 * Real.pi * v.getD (if e = 0 then 1 else 0) 0 *
      direction 0 (Real.arccos (1 - 0)) i) (fun _ _ => 0), ![0, 0, 1 / (2 * v[1])], ![0, 0, 0], ?_, ?_, ?_⟩
  · have get : ∀ k, Cache.get [] k = none := fun _ => rfl
    simp only [realize, sampleCdf, get, h1]
  · simp only [Realization.sample, one_ne_zero, if_false, List.range_one, List.map_cons, List.map_nil,
      Finset.sum_range_one, dot, Fin.sum_univ_three, direction]
    simp [-List.getD_eq_getElem?_getD, hv1]
    have : ∀ y : ℝ, 0 < y → y⁻¹ * 2⁻¹ * (2 * Real.pi * y) = Real.pi := fun y hy => by field_simp
    rw [this _ hpos, Real.cos_pi]
    ring
  · simp only [Realization.sample, one_ne_zero, if_false, List.range_one, List.map_cons, List.map_nil,
      Finset.sum_range_one, dot, Fin.sum_univ_three, direction]
    simp [-List.getD_eq_getElem?_getD, hv0]

/-! ### Moments -/

/-- A scalar of a sample. -/
noncomputable def valueAt (r : Realization) (a b : Fin 3 → ℝ) (k : Nat) : ℝ :=
  match r.sample a b with
  | .ok xs => xs.getD k 0
  | .error _ => 0

/-- The phases of a realization as one random vector. -/
def phasesOf {num N : Nat} (x : Fin num × Fin N → ℝ) (k n : Nat) : ℝ :=
  if h : k < num ∧ n < N then x (⟨k, h.1⟩, ⟨n, h.2⟩) else 0

theorem valueAt_eq (num N : Nat) (hN : 0 < N) (freq : Nat → Nat → Fin 2 → Fin 3 → ℝ) (a b : Fin 3 → ℝ)
    (k : Fin num) (x : Fin num × Fin N → ℝ) :
    valueAt (.dual num N freq (phasesOf x)) a b k =
      ∑ i, (if i.1 = k then Real.sqrt (2 / N) else 0) *
        Real.cos (dot a (freq i.1 i.2 0) + dot b (freq i.1 i.2 1) + x i) := by
  have hN0 : N ≠ 0 := by omega
  simp only [valueAt, Realization.sample, if_neg hN0]
  rw [List.getD_eq_getElem?_getD, List.getElem?_map, List.getElem?_range k.2]
  simp only [Option.map_some, Option.getD_some]
  rw [Fintype.sum_prod_type, Finset.sum_eq_single k]
  · rw [Finset.mul_sum, Finset.sum_range]
    refine Finset.sum_congr rfl fun n _ => ?_
    rw [if_pos rfl]
    unfold phasesOf
    rw [dif_pos ⟨k.2, n.2⟩]
  · intro j _ hj
    refine Finset.sum_eq_zero fun n _ => ?_
    rw [if_neg hj, zero_mul]
  · simp

/-- **C74 (moments).** Whatever the frequencies, over the independent uniform phases a realization draws, the
samples at every pair of positions have mean zero and variance one, different scalars are uncorrelated, and the
correlation between two pairs of positions depends on the displacements only. -/
theorem C74_moments (num N : Nat) (hN : 0 < N) (freq : Nat → Nat → Fin 2 → Fin 3 → ℝ) (a b a' b' : Fin 3 → ℝ)
    (k k' : Fin num) :
    ∫ x, valueAt (.dual num N freq (phasesOf x)) a b k ∂Phases.turns (Fin num × Fin N) 0 = 0 ∧
    ∫ x, valueAt (.dual num N freq (phasesOf x)) a b k ^ 2 ∂Phases.turns (Fin num × Fin N) 0 = 1 ∧
    ∫ x, valueAt (.dual num N freq (phasesOf x)) a b k * valueAt (.dual num N freq (phasesOf x)) a' b' k'
        ∂Phases.turns (Fin num × Fin N) 0 =
      if k = k' then (∑ n ∈ Finset.range N, Real.cos (∑ i, (a i - a' i) * freq k n 0 i +
        ∑ i, (b i - b' i) * freq k n 1 i)) / N else 0 := by
  have hN' : (0 : ℝ) < N := by exact_mod_cast hN
  have hsq : Real.sqrt (2 / N) * Real.sqrt (2 / N) = 2 / N := Real.mul_self_sqrt (by positivity)
  have corr : ∀ (a b a' b' : Fin 3 → ℝ) (k k' : Fin num),
      ∫ x, valueAt (.dual num N freq (phasesOf x)) a b k * valueAt (.dual num N freq (phasesOf x)) a' b' k'
        ∂Phases.turns (Fin num × Fin N) 0 =
      if k = k' then (∑ n ∈ Finset.range N, Real.cos (∑ i, (a i - a' i) * freq k n 0 i +
        ∑ i, (b i - b' i) * freq k n 1 i)) / N else 0 := by
    intro a b a' b' k k'
    simp only [valueAt_eq num N hN]
    rw [Phases.corr_cos 0 (fun i : Fin num × Fin N => if i.1 = k then Real.sqrt (2 / N) else 0)
      (fun i : Fin num × Fin N => if i.1 = k' then Real.sqrt (2 / N) else 0)
      (fun i => dot a (freq i.1 i.2 0) + dot b (freq i.1 i.2 1))
      (fun i => dot a' (freq i.1 i.2 0) + dot b' (freq i.1 i.2 1))]
    rw [Fintype.sum_prod_type, Finset.sum_eq_single k]
    · by_cases hk : k = k'
      · subst hk
        simp only [if_true]
        rw [Finset.sum_range, hsq, ← Finset.mul_sum]
        have e : ∀ n : Fin N, dot a (freq k n 0) + dot b (freq k n 1) - (dot a' (freq k n 0) + dot b' (freq k n 1)) =
            ∑ i, (a i - a' i) * freq k n 0 i + ∑ i, (b i - b' i) * freq k n 1 i := by
          intro n
          rw [← dot_sub, ← dot_sub]; ring
        simp only [e]
        field_simp
      · simp [hk]
    · intro j _ hj
      simp [hj]
    · simp
  refine ⟨?_, ?_, corr a b a' b' k k'⟩
  · simp only [valueAt_eq num N hN]
    exact Phases.mean_cos 0 (fun i : Fin num × Fin N => if i.1 = k then Real.sqrt (2 / N) else 0)
      (fun i => dot a (freq i.1 i.2 0) + dot b (freq i.1 i.2 1))
  · have := corr a b a b k k
    rw [if_pos rfl] at this
    simp only [← pow_two] at this
    rw [this]
    simp
    omega

/-! ### Distributions of the variables -/

theorem normCdf_real (x : ℝ) : normCdf x = (gaussianReal 0 1).real (Set.Iic x) := cdf_eq_real _ _

theorem normCdf_strictMono : StrictMono normCdf := by
  intro x y hxy
  rw [normCdf_real, normCdf_real]
  have h1 : (gaussianReal 0 1).real (Set.Iic y) =
      (gaussianReal 0 1).real (Set.Iic x) + (gaussianReal 0 1).real (Set.Ioc x y) := by
    rw [← measureReal_union]
    · rw [Set.Iic_union_Ioc_eq_Iic hxy.le]
    · rw [Set.disjoint_left]; intro z hz hz'; exact absurd hz'.1 (not_lt.mpr hz)
    · exact measurableSet_Ioc
  have h2 : 0 < (gaussianReal 0 1).real (Set.Ioc x y) := by
    rw [measureReal_def, ENNReal.toReal_pos_iff]
    refine ⟨?_, measure_lt_top _ _⟩
    rw [pos_iff_ne_zero]
    intro h
    have := gaussianReal_absolutelyContinuous' 0 (one_ne_zero : (1 : NNReal) ≠ 0) h
    rw [Real.volume_Ioc, ENNReal.ofReal_eq_zero] at this
    linarith
  linarith

theorem normCdf_continuous : Continuous normCdf := by
  have : NullSingletonClass (gaussianReal 0 1) := nullSingletonClass_gaussianReal one_ne_zero
  rw [continuous_iff_continuousAt]
  intro x
  have h0 : (cdf (gaussianReal 0 1)).measure {x} = 0 := by
    rw [measure_cdf]; exact measure_singleton x
  rw [StieltjesFunction.measure_singleton, ENNReal.ofReal_eq_zero, sub_nonpos] at h0
  have h1 : Function.leftLim (cdf (gaussianReal 0 1)) x = cdf (gaussianReal 0 1) x :=
    le_antisymm ((monotone_cdf _).leftLim_le le_rfl) h0
  rw [continuousAt_iff_continuous_left'_right']
  exact ⟨((monotone_cdf _).continuousWithinAt_Iio_iff_leftLim_eq).mpr h1,
    ((cdf (gaussianReal 0 1)).right_continuous x).mono Set.Ioi_subset_Ici_self⟩

theorem normCdf_half : normCdf 0 = 1 / 2 := by
  have : NullSingletonClass (gaussianReal 0 1) := nullSingletonClass_gaussianReal one_ne_zero
  rw [normCdf_real]
  have hsym : (gaussianReal 0 1).real (Set.Iic 0) = (gaussianReal 0 1).real (Set.Ici 0) := by
    have h := gaussianReal_map_neg (μ := 0) (v := 1)
    rw [neg_zero] at h
    have := congrArg (fun m : Measure ℝ => m.real (Set.Iic 0)) h
    rw [map_measureReal_apply measurable_neg measurableSet_Iic] at this
    rw [← this]
    congr 1
    ext y; simp
  have hIoi : (gaussianReal 0 1).real (Set.Ici 0) = (gaussianReal 0 1).real (Set.Ioi 0) := by
    rw [measureReal_def, measureReal_def, measure_congr Ioi_ae_eq_Ici]
  have hc := probReal_add_probReal_compl (μ := gaussianReal 0 1) (s := Set.Iic (0 : ℝ)) measurableSet_Iic
  rw [Set.compl_Iic, ← hIoi, ← hsym] at hc
  linarith

theorem normCdf_range (x : ℝ) : 0 < normCdf x ∧ normCdf x < 1 :=
  ⟨lt_of_le_of_lt (cdf_nonneg _ (x - 1)) (normCdf_strictMono (by linarith : x - 1 < x)),
   lt_of_lt_of_le (normCdf_strictMono (by linarith : x < x + 1)) (cdf_le_one _ (x + 1))⟩

/-- **C74 (distributions of static variables).** On the standard normal scalars of a static realization, a
Gaussian variable is normally distributed with the requested mean and deviation, a uniform variable takes
values within the open unit interval and is uniformly distributed there, and a boolean variable is a fair coin
that is set exactly where the uniform variable exceeds one half. -/
theorem C74_distributions :
    (∀ mean std : ℝ, (gaussianReal 0 1).map (fun x => mean + std * x) =
      gaussianReal mean (NNReal.mk (std ^ 2) (sq_nonneg std))) ∧
    (∀ x, 0 < normCdf x ∧ normCdf x < 1) ∧
    (∀ u, 0 < u → u < 1 → (gaussianReal 0 1).real {x | normCdf x ≤ u} = u) ∧
    (gaussianReal 0 1).real {x : ℝ | x > 0} = 1 / 2 ∧
    (∀ x : ℝ, x > 0 ↔ 1 / 2 < normCdf x) := by
  refine ⟨fun mean std => ?_, normCdf_range, fun u h0 h1 => ?_, ?_, fun x => ?_⟩
  · have h := gaussianReal_map_const_mul (μ := 0) (v := 1) std
    have h2 := gaussianReal_map_const_add (μ := std * 0) (v := NNReal.mk (std ^ 2) (sq_nonneg std) * 1) mean
    rw [← h, Measure.map_map (by fun_prop) (by fun_prop)] at h2
    simpa [Function.comp_def] using h2
  · obtain ⟨x, hx⟩ := mem_range_of_exists_le_of_exists_ge normCdf_continuous
      (((tendsto_cdf_atBot (gaussianReal 0 1)).eventually (gt_mem_nhds h0)).exists.imp fun _ h => h.le)
      (((tendsto_cdf_atTop (gaussianReal 0 1)).eventually (lt_mem_nhds h1)).exists.imp fun _ h => h.le)
    have : {y | normCdf y ≤ u} = Set.Iic x := by
      ext y
      rw [Set.mem_ofPred_eq, ← hx, normCdf_strictMono.le_iff_le, Set.mem_Iic]
    rw [this, ← normCdf_real, hx]
  · have hc := probReal_add_probReal_compl (μ := gaussianReal 0 1) (s := Set.Iic (0 : ℝ)) measurableSet_Iic
    rw [Set.compl_Iic, ← normCdf_real, normCdf_half] at hc
    change (gaussianReal 0 1).real (Set.Ioi 0) = 1 / 2
    linarith
  · rw [← normCdf_half, normCdf_strictMono.lt_iff_lt]

/-- **C74 (uniform variables at finite distances), violated.** With a finite decorrelation distance uniform
variables are not uniform over the unit interval: there is a margin, depending on the number of sinusoids only,
that they never enter, whatever is drawn and wherever they are sampled. -/
theorem C74_uniform_fails (N : Nat) (hN : 0 < N) :
    ∃ ε : ℝ, 0 < ε ∧ ∀ (num : Nat) (freq : Nat → Nat → Fin 2 → Fin 3 → ℝ) (phase : Nat → Nat → ℝ)
      (a b : Fin 3 → ℝ) (v : Var) (scalars us : List ℝ),
      (Realization.dual num N freq phase).sample a b = .ok scalars → v.uniform scalars = .ok us →
      ∀ u ∈ us, ε ≤ u := by
  refine ⟨normCdf (-Real.sqrt (2 * N)), (normCdf_range _).1, ?_⟩
  intro num freq phase a b v scalars us hs hu u hmem
  have hb : ∀ x ∈ scalars, -Real.sqrt (2 * N) ≤ x := by
    have hN0 : N ≠ 0 := by omega
    simp only [Realization.sample, if_neg hN0] at hs
    obtain rfl := Except.ok.inj hs
    intro x hx
    obtain ⟨k, _, rfl⟩ := List.mem_map.mp hx
    refine (abs_le.mp ?_).1
    rw [abs_mul, abs_of_nonneg (Real.sqrt_nonneg _), ← sqrt_two_div N hN]
    refine mul_le_mul_of_nonneg_left ?_ (Real.sqrt_nonneg _)
    refine (Finset.abs_sum_le_sum_abs _ _).trans ?_
    refine (Finset.sum_le_sum fun n _ => Real.abs_cos_le_one _).trans ?_
    simp
  unfold Var.uniform Var.sample at hu
  simp only [] at hu
  split_ifs at hu with hl
  · obtain rfl := Except.ok.inj hu
    obtain ⟨x, hx, rfl⟩ := List.mem_map.mp hmem
    refine normCdf_strictMono.monotone (hb x ?_)
    exact List.mem_of_mem_drop (List.mem_of_mem_take hx)
  · simp [Except.map] at hu

/-- **C74 (variables).** Gaussian, uniform and boolean variables transform their own scalars one by one. -/
theorem C74_transform (v : Var) (scalars xs : List ℝ) (mean std : ℝ) (h : v.sample scalars = .ok xs) :
    v.gaussian scalars mean std = .ok (xs.map fun x => mean + std * x) ∧
    v.uniform scalars = .ok (xs.map fun x => (gaussianReal 0 1).real (Set.Iic x)) ∧
    ∃ bs, v.boolean scalars = .ok bs ∧ bs.length = xs.length ∧
      ∀ k (h1 : k < bs.length) (h2 : k < xs.length), bs[k] = true ↔ 0 < xs[k] := by
  refine ⟨by simp [Var.gaussian, h, Except.map], ?_, ?_⟩
  · simp only [Var.uniform, h, Except.map]
    congr 1
    exact List.map_congr_left fun x _ => normCdf_real x
  · refine ⟨_, by simp only [Var.boolean, h, Except.map]; rfl, by simp, fun k h1 h2 => ?_⟩
    simp

/-- The moments concern realizations with frequencies, scalars and sinusoids. -/
example : valueAt (.dual 1 2 (fun _ _ _ _ => 1) (fun _ _ => 0)) ![0, 0, 0] ![0, 0, 0] 0 = 2 := by
  simp [valueAt, Realization.sample, dot, Fin.sum_univ_three]

end Verif.Consistent
