import Verif.Channel.StaticCluster
import Verif.Channel.ClusterDrawSample
import Verif.Channel.ClusterRays

/-!
# C121: properties of static cluster delay lines
-/

namespace Verif.CdlStatic

open Verif Verif.Core Finset
open Verif.RadarChannel (Dev Mode)
open Verif.Cdl (Sample Tap)
open Verif.CdlDraw (mean mean_rays offsets)

theorem linear_pos (x : ℚ) : 0 < linear x := Real.rpow_pos_of_pos (by norm_num) _

theorem column_length (k : Kind) (i : Nat) : (k.column i).length = k.table.length := by simp [Kind.column]

theorem delays_nonneg : ∀ k : Kind, ∀ d ∈ k.column 0, 0 ≤ d := by
  intro k
  cases k <;> decide +kernel

theorem table_long (k : Kind) : 2 ≤ k.table.length := by cases k <;> decide

/-- C121: channels can be sampled over any link, and samples are valid for the propagation of signals (C118).  The delays
are those of the table scaled by the configured spread, the first of them zero. -/
theorem C121_sample (r : Realization) (h : 0 ≤ r.rms) (tx rx : Dev) (fc bw : ℝ) (hbw : 0 < bw) :
    (r.sample tx rx fc bw).Valid ∧ (r.sample tx rx fc bw).delays.length = r.kind.table.length ∧
      (∀ c, (r.sample tx rx fc bw).delays.getD c 0 = r.rms * ((r.kind.table.getD c []).getD 0 0 : ℚ)) ∧
      (r.sample tx rx fc bw).delays.getD 0 0 = 0 ∧
      ∀ c, (r.sample tx rx fc bw).powers c = (10 : ℝ) ^ ((((r.kind.table.getD c []).getD 1 0 : ℚ) : ℝ) / 10) := by
  have hc : ∀ (i c : Nat), (r.kind.column i).getD c 0 = (r.kind.table.getD c []).getD i 0 := by
    intro i c
    simp only [Kind.column, List.getD_eq_getElem?_getD, List.getElem?_map]
    cases r.kind.table[c]? <;> simp
  have hd : ∀ c, (r.sample tx rx fc bw).delays.getD c 0 = r.rms * ((r.kind.table.getD c []).getD 0 0 : ℚ) := by
    intro c
    rw [← hc]
    simp only [Realization.sample, List.getD_eq_getElem?_getD, List.getElem?_map]
    cases (r.kind.column 0)[c]? <;> simp
  refine ⟨⟨?_, ?_, h, le_refl _, hbw, le_refl _⟩, ?_, hd, ?_, ?_⟩
  · intro h0
    have := congrArg List.length h0
    simp only [Realization.sample, List.length_map, column_length, List.length_nil] at this
    have := table_long r.kind
    omega
  · intro d hm
    simp only [Realization.sample, List.mem_map] at hm
    obtain ⟨q, hq, rfl⟩ := hm
    exact mul_nonneg h (by exact_mod_cast delays_nonneg _ q hq)
  · simp only [Realization.sample, List.length_map, column_length]
  · rw [hd]
    have : (r.kind.table.getD 0 []).getD 0 0 = 0 := by cases r.kind <;> decide
    rw [this]
    simp
  · intro c
    simp only [Realization.sample, linear, hc]

/-! ### Angles -/

/-- Couplings as drawn: permutations of the twenty rays, channel/cdl/cdl.py 451-460. -/
def Coupled (r : Realization) : Prop := ∀ a c, Set.BijOn (r.coupling a c) (range 20 : Finset Nat) (range 20 : Finset Nat)

theorem offsets_le (m : Nat) : |offsets.getD m 0| ≤ 2.1551 := by
  by_cases h : m < 20
  · interval_cases m <;> norm_num [offsets, abs_le]
  · rw [List.getD_eq_getElem?_getD, List.getElem?_eq_none (by simp [offsets]; omega)]
    norm_num

/-- C121: the angles of the rays of a cluster spread around those of the table, converted to radians, which are their
mean, by at most the spread of the model times the largest offset of the standard, wherever the devices are. -/
theorem C121_angles (r : Realization) (hc : Coupled r) (tx rx : Dev) (fc bw : ℝ) (c : Nat) :
    let s := r.sample tx rx fc bw
    let row := r.kind.table.getD c []
    (mean s.aod c = (row.getD 2 0 : ℚ) * Real.pi / 180 ∧ mean s.aoa c = (row.getD 3 0 : ℚ) * Real.pi / 180 ∧
      mean s.zod c = (row.getD 4 0 : ℚ) * Real.pi / 180 ∧ mean s.zoa c = (row.getD 5 0 : ℚ) * Real.pi / 180) ∧
    ∀ m, |s.aod c m - mean s.aod c| ≤ 2.1551 * r.kind.per.asd * Real.pi / 180 ∧
      |s.aoa c m - mean s.aoa c| ≤ 2.1551 * r.kind.per.asa * Real.pi / 180 ∧
      |s.zod c m - mean s.zod c| ≤ 2.1551 * r.kind.per.zsd * Real.pi / 180 ∧
      |s.zoa c m - mean s.zoa c| ≤ 2.1551 * r.kind.per.zsa * Real.pi / 180 := by
  intro s row
  have hcol : ∀ (i : Nat), (r.kind.column i).getD c 0 = row.getD i 0 := by
    intro i
    simp only [row, Kind.column, List.getD_eq_getElem?_getD, List.getElem?_map]
    cases r.kind.table[c]? <;> simp
  have hm : ∀ i w a, mean (r.angles i w a) c = (row.getD i 0 : ℚ) * Real.pi / 180 := by
    intro i w a
    rw [Realization.angles, mean_rays _ _ _ _ (hc a c), hcol]
    ring
  have hd : ∀ i (w : ℚ) a m, 0 ≤ w → |r.angles i w a c m - mean (r.angles i w a) c| ≤ 2.1551 * w * Real.pi / 180 := by
    intro i w a m hw
    have hw' : (0 : ℝ) ≤ w := by exact_mod_cast hw
    have hp := Real.pi_pos
    rw [hm]
    simp only [Realization.angles, CdlDraw.rays, hcol]
    have e : Real.pi / 180 * (((row.getD i 0 : ℚ) : ℝ) + w * offsets.getD (r.coupling a c m) 0) -
        ((row.getD i 0 : ℚ) : ℝ) * Real.pi / 180 = Real.pi / 180 * w * offsets.getD (r.coupling a c m) 0 := by ring
    rw [e, abs_mul, abs_of_nonneg (by positivity)]
    have := mul_le_mul_of_nonneg_left (offsets_le (r.coupling a c m)) (by positivity : 0 ≤ Real.pi / 180 * (w : ℝ))
    linarith
  have hper : 0 ≤ r.kind.per.asd ∧ 0 ≤ r.kind.per.asa ∧ 0 ≤ r.kind.per.zsd ∧ 0 ≤ r.kind.per.zsa := by
    cases r.kind <;> decide +kernel
  exact ⟨⟨hm _ _ _, hm _ _ _, hm _ _ _, hm _ _ _⟩, fun m => ⟨hd _ _ _ m hper.1, hd _ _ _ m hper.2.1, hd _ _ _ m hper.2.2.1,
    hd _ _ _ m hper.2.2.2⟩⟩

/-! ### Powers and spreads -/

/-- Largest natural multiples of `1e-5` not greater than the powers, given in decibel. -/
def checks : List ℚ → List Nat → Bool
  | [], [] => true
  | q :: qs, k :: ks =>
    decide (q = -((-100 * q).num.toNat : ℚ) / 100) && decide (k ^ 1000 * 10 ^ (-100 * q).num.toNat ≤ 100000 ^ 1000) &&
      decide (100000 ^ 1000 ≤ (k + 1) ^ 1000 * 10 ^ (-100 * q).num.toNat) && checks qs ks
  | _, _ => false

theorem linear_pow (q : ℚ) (n : Nat) (h : q = -(n : ℚ) / 100) : linear q ^ 1000 * 10 ^ n = 1 := by
  unfold linear
  rw [← Real.rpow_natCast _ 1000, ← Real.rpow_mul (by norm_num), ← Real.rpow_natCast 10 n, ← Real.rpow_add (by norm_num), h]
  push_cast
  rw [show (-(n : ℝ) / 100 / 10 * 1000 + n) = 0 by ring, Real.rpow_zero]

theorem root_bounds (x : ℝ) (hx : 0 < x) (N c k D : Nat) (hN : N ≠ 0) (hD : 0 < D) (hc : 0 < c) (e : x ^ N * c = 1)
    (h1 : k ^ N * c ≤ D ^ N) (h2 : D ^ N ≤ (k + 1) ^ N * c) : (k : ℝ) / D ≤ x ∧ x ≤ ((k : ℝ) + 1) / D := by
  have hn : (0 : ℝ) < c := by exact_mod_cast hc
  have hD' : (0 : ℝ) < D := by exact_mod_cast hD
  have h6 : x ^ N * (D : ℝ) ^ N * c = (D : ℝ) ^ N := by
    rw [show x ^ N * (D : ℝ) ^ N * c = (D : ℝ) ^ N * (x ^ N * c) by ring, e, mul_one]
  constructor
  · by_contra hlt
    have h3 := pow_lt_pow_left₀ (not_le.mp hlt) hx.le hN
    rw [div_pow, lt_div_iff₀ (by positivity)] at h3
    have h4 : (k : ℝ) ^ N * c ≤ (D : ℝ) ^ N := by exact_mod_cast h1
    have h5 := mul_lt_mul_of_pos_right h3 hn
    rw [h6] at h5
    exact absurd h4 (not_le.mpr h5)
  · by_contra hlt
    have h3 := pow_lt_pow_left₀ (not_le.mp hlt) (by positivity) hN
    rw [div_pow, div_lt_iff₀ (by positivity)] at h3
    have h4 : (D : ℝ) ^ N ≤ ((k : ℝ) + 1) ^ N * c := by exact_mod_cast h2
    have h5 := mul_lt_mul_of_pos_right h3 hn
    rw [h6] at h5
    exact absurd h4 (not_le.mpr h5)

theorem linear_bounds (q : ℚ) (n k : Nat) (h : q = -(n : ℚ) / 100) (h1 : k ^ 1000 * 10 ^ n ≤ 100000 ^ 1000)
    (h2 : 100000 ^ 1000 ≤ (k + 1) ^ 1000 * 10 ^ n) : (k : ℝ) / 100000 ≤ linear q ∧ linear q ≤ ((k : ℝ) + 1) / 100000 := by
  have := root_bounds (linear q) (linear_pos q) 1000 (10 ^ n) k 100000 (by norm_num) (by norm_num) (by positivity)
    (by rw [Nat.cast_pow]; exact linear_pow q n h) h1 h2
  simpa using this

/-- Powers weighted. -/
noncomputable def weigh (qs w : List ℚ) : ℝ := (List.zipWith (fun (q w : ℚ) => linear q * (w : ℝ)) qs w).sum

def low (ks : List Nat) (w : List ℚ) : ℚ := (List.zipWith (fun (k : Nat) (w : ℚ) => (k : ℚ) / 100000 * w) ks w).sum
def high (ks : List Nat) (w : List ℚ) : ℚ := (List.zipWith (fun (k : Nat) (w : ℚ) => ((k : ℚ) + 1) / 100000 * w) ks w).sum

theorem weigh_bounds : ∀ (qs : List ℚ) (ks : List Nat) (w : List ℚ), checks qs ks = true → (∀ x ∈ w, 0 ≤ x) →
    (low ks w : ℝ) ≤ weigh qs w ∧ weigh qs w ≤ (high ks w : ℝ)
  | [], [], w, _, _ => by simp [low, high, weigh]
  | [], _ :: _, _, h, _ => by simp [checks] at h
  | _ :: _, [], _, h, _ => by simp [checks] at h
  | q :: qs, k :: ks, [], _, _ => by simp [low, high, weigh]
  | q :: qs, k :: ks, x :: w, h, hw => by
    simp only [checks, Bool.and_eq_true, decide_eq_true_eq] at h
    obtain ⟨⟨⟨h1, h2⟩, h3⟩, h4⟩ := h
    have ih := weigh_bounds qs ks w h4 fun y hy => hw y (List.mem_cons_of_mem _ hy)
    have hb := linear_bounds q _ k h1 h2 h3
    have hx : (0 : ℝ) ≤ x := by exact_mod_cast hw x (List.mem_cons_self ..)
    have e1 : (low (k :: ks) (x :: w) : ℝ) = (k : ℝ) / 100000 * x + low ks w := by simp [low]
    have e2 : (high (k :: ks) (x :: w) : ℝ) = ((k : ℝ) + 1) / 100000 * x + high ks w := by simp [high]
    have e3 : weigh (q :: qs) (x :: w) = linear q * x + weigh qs w := by simp [weigh]
    rw [e1, e2, e3]
    constructor
    · exact add_le_add (mul_le_mul_of_nonneg_right hb.1 hx) ih.1
    · exact add_le_add (mul_le_mul_of_nonneg_right hb.2 hx) ih.2

/-- Powers of the clusters in multiples of `1e-5`, rounded down. -/
def Kind.floors : Kind → List Nat
  | .A => [4570, 100000, 60255, 39810, 25118, 15135, 10232, 8912, 17782, 2570, 21877, 2137, 5754, 3019, 8317, 7413, 5370, 2398, 1479, 1288, 2187, 1023, 107]
  | .B => [100000, 60255, 39810, 47863, 10471, 75857, 45708, 30199, 17378, 50118, 12882, 12589, 33113, 26915, 17782, 64565, 17378, 6025, 10471, 7244, 3235, 12022, 7413]
  | .C => [36307, 75857, 44668, 30199, 56234, 100000, 60255, 40738, 18197, 19498, 8511, 7762, 30902, 20892, 13489, 4786, 4073, 4073, 2630, 1949, 2511, 2691, 691, 524]
  | .D => [95499, 4466, 1318, 794, 524, 1621, 977, 645, 512, 165, 436, 331, 100, 169]
  | .E => [99311, 626, 2630, 1548, 1047, 512, 575, 1380, 831, 549, 588, 275, 954, 104, 120]

theorem checked (k : Kind) : checks (k.column 1) k.floors = true := by cases k <;> decide +kernel

/-- Moments of the delays of a power delay profile. -/
noncomputable def moment (n : Nat) (l : List (ℝ × ℝ)) : ℝ := (l.map fun e => e.1 * e.2 ^ n).sum

/-- Root mean square delay spread of a power delay profile: powers and delays. -/
noncomputable def rmsSpread (l : List (ℝ × ℝ)) : ℝ := Real.sqrt (moment 2 l / moment 0 l - (moment 1 l / moment 0 l) ^ 2)

/-- Powers and delays of the clusters of a sample. -/
noncomputable def clusters (s : Sample) : List (ℝ × ℝ) := (List.range s.delays.length).map fun c => (s.powers c, s.delays.getD c 0)

/-- Powers and delays of the contributions to a sample, at the first antennas. -/
noncomputable def profile (ts : List Tap) : List (ℝ × ℝ) := ts.map fun t => (‖t.h.val 0 0‖ ^ 2, t.delay)

theorem range_map {α β : Type} (l : List α) (d : α) (f : α → β) : (List.range l.length).map (fun c => f (l.getD c d)) = l.map f := by
  apply List.ext_getElem
  · simp
  · intro i h1 h2
    simp at h1
    simp [h1]

theorem weigh_map (T : List (List ℚ)) (f g : List ℚ → ℚ) : weigh (T.map f) (T.map g) = (T.map fun r => linear (f r) * (g r : ℝ)).sum := by
  unfold weigh
  congr 1
  induction T with
  | nil => rfl
  | cons a T ih => simp [ih]

theorem column_getD (k : Kind) (i c : Nat) : (k.column i).getD c 0 = (k.table.getD c []).getD i 0 := by
  simp only [Kind.column, List.getD_eq_getElem?_getD, List.getElem?_map]
  cases k.table[c]? <;> simp

theorem delay_getD (r : Realization) (tx rx : Dev) (fc bw : ℝ) (c : Nat) :
    (r.sample tx rx fc bw).delays.getD c 0 = r.rms * ((r.kind.table.getD c []).getD 0 0 : ℚ) := by
  rw [← column_getD]
  simp only [Realization.sample, List.getD_eq_getElem?_getD, List.getElem?_map]
  cases (r.kind.column 0)[c]? <;> simp

/-- Powers of the delays of the table. -/
def Kind.powers (k : Kind) (n : Nat) : List ℚ := k.table.map fun row => row.getD 0 0 ^ n

theorem clusters_moment (r : Realization) (tx rx : Dev) (fc bw : ℝ) (n : Nat) :
    moment n (clusters (r.sample tx rx fc bw)) = r.rms ^ n * weigh (r.kind.column 1) (r.kind.powers n) := by
  have h1 : clusters (r.sample tx rx fc bw) =
      r.kind.table.map fun row => (linear (row.getD 1 0), r.rms * ((row.getD 0 0 : ℚ) : ℝ)) := by
    rw [← range_map r.kind.table []]
    unfold clusters
    have : (r.sample tx rx fc bw).delays.length = r.kind.table.length := by
      simp only [Realization.sample, List.length_map, column_length]
    rw [this]
    refine List.map_congr_left fun c _ => ?_
    rw [delay_getD]
    simp only [Realization.sample, column_getD]
  unfold moment Kind.powers Kind.column
  rw [h1, weigh_map, List.map_map, ← List.sum_map_mul_left]
  congr 1
  refine List.map_congr_left fun row _ => ?_
  simp only [Function.comp_apply]
  push_cast
  ring

theorem powers_nonneg (k : Kind) (n : Nat) : ∀ x ∈ k.powers n, 0 ≤ x := by
  intro x hx
  simp only [Kind.powers, List.mem_map] at hx
  obtain ⟨row, hr, rfl⟩ := hx
  apply pow_nonneg
  exact delays_nonneg k _ (List.mem_map.mpr ⟨row, hr, rfl⟩)

/-- Deviations of profiles from bounds of their moments. -/
theorem spread_between (S0 S1 S2 r l0 l1 l2 h0 h1 h2 a b : ℝ) (hr : 0 ≤ r) (hb : 0 ≤ b) (hl0 : 0 < l0) (hl1 : 0 ≤ l1) (hl2 : 0 ≤ l2)
    (c0 : l0 ≤ S0 ∧ S0 ≤ h0) (c1 : l1 ≤ S1 ∧ S1 ≤ h1) (c2 : l2 ≤ S2 ∧ S2 ≤ h2) :
    (a ^ 2 * h0 ^ 2 ≤ l2 * l0 - h1 ^ 2 → a * r ≤ Real.sqrt (r ^ 2 * S2 / S0 - (r * S1 / S0) ^ 2)) ∧
    (h2 * h0 - l1 ^ 2 ≤ b ^ 2 * l0 ^ 2 → Real.sqrt (r ^ 2 * S2 / S0 - (r * S1 / S0) ^ 2) ≤ b * r) := by
  have hS0 : 0 < S0 := by linarith [c0.1]
  have e : r ^ 2 * S2 / S0 - (r * S1 / S0) ^ 2 = r ^ 2 * ((S2 * S0 - S1 ^ 2) / S0 ^ 2) := by field_simp
  have hS1 : 0 ≤ S1 := by linarith [c1.1]
  have hS2 : 0 ≤ S2 := by linarith [c2.1]
  constructor
  · intro h
    apply Real.le_sqrt_of_sq_le
    rw [e, mul_pow, mul_comm]
    apply mul_le_mul_of_nonneg_left _ (by positivity)
    rw [le_div_iff₀ (by positivity)]
    have f1 : a ^ 2 * S0 ^ 2 ≤ a ^ 2 * h0 ^ 2 := mul_le_mul_of_nonneg_left (pow_le_pow_left₀ hS0.le c0.2 2) (by positivity)
    have f2 : l2 * l0 ≤ S2 * S0 := mul_le_mul c2.1 c0.1 hl0.le hS2
    have f3 : S1 ^ 2 ≤ h1 ^ 2 := pow_le_pow_left₀ hS1 c1.2 2
    linarith
  · intro h
    apply Real.sqrt_le_iff.mpr
    refine ⟨by positivity, ?_⟩
    rw [e, mul_pow, mul_comm (b ^ 2)]
    apply mul_le_mul_of_nonneg_left _ (by positivity)
    rw [div_le_iff₀ (by positivity)]
    have f1 : b ^ 2 * l0 ^ 2 ≤ b ^ 2 * S0 ^ 2 := mul_le_mul_of_nonneg_left (pow_le_pow_left₀ hl0.le c0.1 2) (by positivity)
    have f2 : S2 * S0 ≤ h2 * h0 := mul_le_mul c2.2 c0.2 hS0.le (by linarith [c2.2])
    have f3 : l1 ^ 2 ≤ S1 ^ 2 := pow_le_pow_left₀ hl1 c1.1 2
    linarith

/-- C121: the root mean square delay spread of the clusters, before they are split into rays, is that configured up to
one percent. -/
theorem C121_spread_partial (r : Realization) (h : 0 ≤ r.rms) (tx rx : Dev) (fc bw : ℝ) :
    0.99 * r.rms ≤ rmsSpread (clusters (r.sample tx rx fc bw)) ∧ rmsSpread (clusters (r.sample tx rx fc bw)) ≤ 1.01 * r.rms := by
  have hb := fun n => weigh_bounds _ _ _ (checked r.kind) (powers_nonneg r.kind n)
  have hnum : ∀ k : Kind, 0 < low k.floors (k.powers 0) ∧ 0 ≤ low k.floors (k.powers 1) ∧ 0 ≤ low k.floors (k.powers 2) ∧
      (99 / 100) ^ 2 * high k.floors (k.powers 0) ^ 2 ≤
        low k.floors (k.powers 2) * low k.floors (k.powers 0) - high k.floors (k.powers 1) ^ 2 ∧
      high k.floors (k.powers 2) * high k.floors (k.powers 0) - low k.floors (k.powers 1) ^ 2 ≤
        (101 / 100) ^ 2 * low k.floors (k.powers 0) ^ 2 := by
    intro k
    cases k <;> decide +kernel
  obtain ⟨n0, n1, n2, n3, n4⟩ := hnum r.kind
  have key := spread_between _ _ _ r.rms _ _ _ _ _ _ 0.99 1.01 h (by norm_num)
    (by exact_mod_cast n0) (by exact_mod_cast n1) (by exact_mod_cast n2) (hb 0) (hb 1) (hb 2)
  unfold rmsSpread
  rw [clusters_moment, clusters_moment, clusters_moment, pow_zero, one_mul, pow_one]
  refine ⟨key.1 ?_, key.2 ?_⟩
  · have : (0.99 : ℝ) = ((99 / 100 : ℚ) : ℝ) := by norm_num
    rw [this]
    exact_mod_cast n3
  · have : (1.01 : ℝ) = ((101 / 100 : ℚ) : ℝ) := by norm_num
    rw [this]
    exact_mod_cast n4

/-! ### Rays -/

/-- Devices whose first antenna responds to vertical polarization only, equally in all directions. -/
def Vertical (d : Dev) : Prop := ∀ m fc v, d.resp m fc v 0 0 = 1 ∧ d.resp m fc v 0 1 = 0

theorem norm_turn (x : ℝ) : ‖Complex.exp (2 * Complex.I * Real.pi * (x : ℝ))‖ = 1 := by
  have : (2 * Complex.I * Real.pi * (x : ℝ) : ℂ) = ((2 * Real.pi * x : ℝ) : ℂ) * Complex.I := by push_cast; ring
  rw [this, Complex.norm_exp_ofReal_mul_I]

theorem plain (r : Realization) (tx rx : Dev) (fc bw : ℝ) (ht : Vertical tx) (hr : Vertical rx) :
    (r.sample tx rx fc bw).Plain where
  rx m v := hr m fc v
  tx m v := ht m fc v
  jones c m := by simp only [Realization.sample, Realization.jones, if_true, mul_one, norm_turn]

/-- Powers of the delays of the rays of the clusters, weighted by the share of rays. -/
def splitPowers (n : Nat) : List (List ℚ) → List ℚ
  | a :: b :: T =>
    ((a.getD 0 0) ^ n + (a.getD 0 0 + 1.28) ^ n + (a.getD 0 0 + 2.56) ^ n) / 2 ::
    3 * ((b.getD 0 0) ^ n + (b.getD 0 0 + 1.28) ^ n + (b.getD 0 0 + 2.56) ^ n) / 10 :: T.map fun row => row.getD 0 0 ^ n
  | T => T.map fun _ => 0

theorem rays_moment (r : Realization) (tx rx : Dev) (fc bw : ℝ) (ht : Vertical tx) (hr : Vertical rx) (n : Nat) :
    let s := r.sample tx rx fc bw
    moment n (profile (s.schedule.map s.ray)) =
      s.scatter ^ 2 * (r.rms ^ n * weigh (r.kind.column 1) (splitPowers n r.kind.table)) := by
  intro s
  have hlen : s.delays.length = r.kind.table.length := by
    simp only [s, Realization.sample, List.length_map, column_length]
  have hp : ∀ e, ‖(s.ray e).h.val 0 0‖ ^ 2 = s.powers e.1 / 20 * s.scatter ^ 2 := by
    intro e
    have := Cdl.ray_power (plain r tx rx fc bw ht hr) e (linear_pos _).le
    simpa [s, Realization.sample] using this
  have hsum : moment n (profile (s.schedule.map s.ray)) =
      ((List.range r.kind.table.length).map fun c => ((Cdl.used 20 c).map fun e : Nat × ℝ =>
        linear ((r.kind.table.getD c []).getD 1 0) / 20 * s.scatter ^ 2 *
          (r.rms * ((r.kind.table.getD c []).getD 0 0 : ℚ) + r.rms * e.2) ^ n).sum).sum := by
    unfold moment profile Sample.schedule
    rw [List.map_map, List.map_map, hlen, Cdl.sum_flatMap_real]
    congr 1
    refine List.map_congr_left fun c _ => ?_
    rw [List.map_map]
    congr 1
    refine List.map_congr_left fun e _ => ?_
    simp only [Function.comp_apply, hp]
    have h1 : s.delays.getD c 0 = _ := delay_getD r tx rx fc bw c
    have h2 : s.powers c = linear ((r.kind.table.getD c []).getD 1 0) := by
      simp only [s, Realization.sample, column_getD]
    have h3 : (s.ray (c, e.1, s.delays.getD c 0 + s.spread * e.2)).delay = s.delays.getD c 0 + s.spread * e.2 := rfl
    rw [h3, h1, h2]
    rfl
  rw [hsum]
  obtain ⟨a, b, T, hT⟩ : ∃ a b T, r.kind.table = a :: b :: T := by
    have := table_long r.kind
    match h : r.kind.table with
    | [] => rw [h] at this; simp at this
    | [_] => rw [h] at this; simp at this
    | a :: b :: T => exact ⟨a, b, T, rfl⟩
  simp only [Kind.column, hT, splitPowers]
  have hr2 : List.range (a :: b :: T).length = 0 :: 1 :: (List.range T.length).map (· + 2) := by
    simp only [List.length_cons, List.range_succ_eq_map, List.map_cons, List.map_map]
    rfl
  have htail : ((List.range T.length).map fun c => ((Cdl.used 20 (c + 2)).map fun e : Nat × ℝ =>
      linear ((T.getD c []).getD 1 0) / 20 * s.scatter ^ 2 * (r.rms * ((T.getD c []).getD 0 0 : ℚ) + r.rms * e.2) ^ n).sum).sum =
      s.scatter ^ 2 * (r.rms ^ n * (T.map fun row => linear (row.getD 1 0) * ((row.getD 0 0 ^ n : ℚ) : ℝ)).sum) := by
    rw [← List.sum_map_mul_left, ← List.sum_map_mul_left, ← range_map T []]
    congr 1
    refine List.map_congr_left fun c _ => ?_
    have hu : Cdl.used 20 (c + 2) = (List.range 20).map fun m => (m, (0 : ℝ)) := by
      unfold Cdl.used
      rw [if_neg (by omega), if_neg (by omega)]
    rw [hu, List.map_map]
    have : ((fun e : Nat × ℝ => linear ((T.getD c []).getD 1 0) / 20 * s.scatter ^ 2 *
        (r.rms * ((T.getD c []).getD 0 0 : ℚ) + r.rms * e.2) ^ n) ∘ fun m => (m, (0 : ℝ))) =
        fun _ => linear ((T.getD c []).getD 1 0) / 20 * s.scatter ^ 2 * (r.rms * ((T.getD c []).getD 0 0 : ℚ)) ^ n := by
      funext m
      simp
    rw [this, List.map_const', List.sum_replicate, List.length_range]
    push_cast
    ring
  rw [hr2, List.map_cons, List.map_cons, List.sum_cons, List.sum_cons, List.map_map]
  have hshift : ((fun c => ((Cdl.used 20 c).map fun e : Nat × ℝ => linear (((a :: b :: T).getD c []).getD 1 0) / 20 * s.scatter ^ 2 *
        (r.rms * (((a :: b :: T).getD c []).getD 0 0 : ℚ) + r.rms * e.2) ^ n).sum) ∘ (· + 2)) =
      fun c => ((Cdl.used 20 (c + 2)).map fun e : Nat × ℝ =>
      linear ((T.getD c []).getD 1 0) / 20 * s.scatter ^ 2 * (r.rms * ((T.getD c []).getD 0 0 : ℚ) + r.rms * e.2) ^ n).sum := by
    funext c
    simp
  rw [hshift, htail]
  simp only [weigh, List.map_cons, List.zipWith_cons_cons, List.sum_cons]
  have hz : (List.zipWith (fun (q w : ℚ) => linear q * (w : ℝ)) (T.map fun row => row.getD 1 0) (T.map fun row => row.getD 0 0 ^ n)).sum =
      (T.map fun row => linear (row.getD 1 0) * ((row.getD 0 0 ^ n : ℚ) : ℝ)).sum :=
    weigh_map T _ _
  rw [hz]
  simp only [Cdl.used, List.flatMap_cons, List.flatMap_nil, List.map_cons, List.map_nil, List.append_nil,
    List.cons_append, List.nil_append, List.sum_cons, List.sum_nil, if_true, one_ne_zero, if_false, List.getD_cons_zero,
    List.getD_cons_succ]
  push_cast
  have f : ∀ x y : ℝ, (r.rms * x + r.rms * y) ^ n = r.rms ^ n * (x + y) ^ n := fun x y => by rw [← mul_add, mul_pow]
  simp only [f, add_zero]
  ring

theorem split_nonneg (k : Kind) (n : Nat) : ∀ x ∈ splitPowers n k.table, 0 ≤ x := by
  obtain ⟨a, b, T, hT⟩ : ∃ a b T, k.table = a :: b :: T := by
    have := table_long k
    match h : k.table with
    | [] => rw [h] at this; simp at this
    | [_] => rw [h] at this; simp at this
    | a :: b :: T => exact ⟨a, b, T, rfl⟩
  have h0 : ∀ row ∈ k.table, 0 ≤ row.getD 0 0 := fun row hr => delays_nonneg k _ (List.mem_map.mpr ⟨row, hr, rfl⟩)
  rw [hT] at h0 ⊢
  have ha := h0 a (by simp)
  have hb := h0 b (by simp)
  intro x hx
  simp only [splitPowers, List.mem_cons, List.mem_map] at hx
  rcases hx with rfl | rfl | ⟨row, hr, rfl⟩
  · positivity
  · positivity
  · exact pow_nonneg (h0 row (by simp [hr])) n

/-- C121 fails for the spread of the delays of models without line of sight: since the first two rows of the table, which
are those of the standard already split up, are split again, and by the spread of the whole channel, the root mean square
delay spread of the rays exceeds that configured by at least twelve, five and eight percent. -/
theorem C121_spread_fails (r : Realization) (h : 0 ≤ r.rms) (tx rx : Dev) (fc bw : ℝ) (hbw : 0 < bw) (ht : Vertical tx)
    (hr : Vertical rx) : ∃ ts, (r.sample tx rx fc bw).taps = .ok ts ∧
      (r.kind = .A → 1.12 * r.rms ≤ rmsSpread (profile ts)) ∧ (r.kind = .B → 1.05 * r.rms ≤ rmsSpread (profile ts)) ∧
      (r.kind = .C → 1.08 * r.rms ≤ rmsSpread (profile ts)) := by
  have hv := (C121_sample r h tx rx fc bw hbw).1
  refine ⟨_, Cdl.taps_eq hv, ?_⟩
  have hb := fun n => weigh_bounds _ _ _ (checked r.kind) (split_nonneg r.kind n)
  have key : ∀ a : ℚ, r.kind.per.los = false → 0 ≤ a →
      0 < low r.kind.floors (splitPowers 0 r.kind.table) ∧ 0 ≤ low r.kind.floors (splitPowers 1 r.kind.table) ∧
      0 ≤ low r.kind.floors (splitPowers 2 r.kind.table) ∧
      a ^ 2 * high r.kind.floors (splitPowers 0 r.kind.table) ^ 2 ≤
        low r.kind.floors (splitPowers 2 r.kind.table) * low r.kind.floors (splitPowers 0 r.kind.table) -
          high r.kind.floors (splitPowers 1 r.kind.table) ^ 2 →
      (a : ℝ) * r.rms ≤ rmsSpread (profile (r.sample tx rx fc bw).all) := by
    intro a hl ha ⟨n0, n1, n2, n3⟩
    have hs : (r.sample tx rx fc bw).scatter ^ 2 = 1 := by
      rw [Cdl.scatter_sq]
      simp [Realization.sample, hl]
    have hall : (r.sample tx rx fc bw).all = (r.sample tx rx fc bw).schedule.map (r.sample tx rx fc bw).ray := by
      simp [Sample.all, Realization.sample, hl]
    have hm := rays_moment r tx rx fc bw ht hr
    simp only [hs, one_mul] at hm
    have := (spread_between _ _ _ r.rms _ _ _ _ _ _ a a h (by exact_mod_cast ha)
      (by exact_mod_cast n0) (by exact_mod_cast n1) (by exact_mod_cast n2) (hb 0) (hb 1) (hb 2)).1
    unfold rmsSpread
    rw [hall, hm 0, hm 1, hm 2, pow_zero, one_mul, pow_one]
    exact this (by exact_mod_cast n3)
  refine ⟨fun hk => ?_, fun hk => ?_, fun hk => ?_⟩
  · have := key 1.12 (by rw [hk]; rfl) (by norm_num) (by rw [hk]; decide +kernel)
    norm_num at this ⊢
    exact this
  · have := key 1.05 (by rw [hk]; rfl) (by norm_num) (by rw [hk]; decide +kernel)
    norm_num at this ⊢
    exact this
  · have := key 1.08 (by rw [hk]; rfl) (by norm_num) (by rw [hk]; decide +kernel)
    norm_num at this ⊢
    exact this

theorem total_profile (ts : List Tap) : Cdl.total ts = moment 0 (profile ts) := by
  unfold Cdl.total moment profile
  rw [List.map_map]
  congr 1
  exact List.map_congr_left fun t _ => by simp

/-- C121 fails for the gain of models without line of sight, which should be the power transferred: it has no influence,
and more than three times the power transmitted is received, even over channels of gain zero, since the powers of the
table are not normalized. -/
theorem C121_gain_fails (r : Realization) (h : 0 ≤ r.rms) (tx rx : Dev) (fc bw : ℝ) (hbw : 0 < bw) (ht : Vertical tx)
    (hr : Vertical rx) (hl : r.kind.per.los = false) :
    (∀ g, ({ r with gain := g } : Realization).sample tx rx fc bw = r.sample tx rx fc bw) ∧
    ∃ ts, (r.sample tx rx fc bw).taps = .ok ts ∧ 3.3 ≤ Cdl.total ts ∧ 3.4 ≤ (r.sample tx rx fc bw).energyScale := by
  have hv := (C121_sample r h tx rx fc bw hbw).1
  refine ⟨fun g => rfl, _, Cdl.taps_eq hv, ?_, ?_⟩
  · have hb := (weigh_bounds _ _ _ (checked r.kind) (split_nonneg r.kind 0)).1
    have hs : (r.sample tx rx fc bw).scatter ^ 2 = 1 := by
      rw [Cdl.scatter_sq]
      simp [Realization.sample, hl]
    have hall : (r.sample tx rx fc bw).all = (r.sample tx rx fc bw).schedule.map (r.sample tx rx fc bw).ray := by
      simp [Sample.all, Realization.sample, hl]
    have hm := rays_moment r tx rx fc bw ht hr 0
    simp only [hs, one_mul, pow_zero] at hm
    rw [total_profile, hall, hm]
    have hn : ∀ k : Kind, k.per.los = false → (33 / 10 : ℚ) ≤ low k.floors (splitPowers 0 k.table) := by
      intro k
      cases k <;> decide +kernel
    have := hn r.kind hl
    have h3 : ((33 / 10 : ℚ) : ℝ) ≤ low r.kind.floors (splitPowers 0 r.kind.table) := by exact_mod_cast this
    push_cast at h3
    linarith
  · have hb := (weigh_bounds _ _ _ (checked r.kind) (powers_nonneg r.kind 0)).1
    have e : (r.sample tx rx fc bw).energyScale = moment 0 (clusters (r.sample tx rx fc bw)) := by
      unfold Sample.energyScale moment clusters
      rw [List.map_map, ← Cdl.sum_range_real]
      congr 1
      exact List.map_congr_left fun c _ => by simp
    rw [e, clusters_moment, pow_zero, one_mul]
    have hn : ∀ k : Kind, k.per.los = false → (34 / 10 : ℚ) ≤ low k.floors (k.powers 0) := by
      intro k
      cases k <;> decide +kernel
    have h3 : ((34 / 10 : ℚ) : ℝ) ≤ low r.kind.floors (r.kind.powers 0) := by exact_mod_cast hn r.kind hl
    push_cast at h3
    linarith

/-! ### Line of sight -/

/-- C121: models without line of sight do not depend on the configured factor, those with it have one contribution more,
which arrives first. -/
theorem C121_sight (r : Realization) (h : 0 ≤ r.rms) (tx rx : Dev) (fc bw : ℝ) (hbw : 0 < bw) :
    (r.kind = .A ∨ r.kind = .B ∨ r.kind = .C → ∀ k, (({ r with rice := k } : Realization).sample tx rx fc bw).taps =
      (r.sample tx rx fc bw).taps) ∧
    (r.kind = .D ∨ r.kind = .E → ∃ ts, (r.sample tx rx fc bw).taps = .ok (ts ++ [(r.sample tx rx fc bw).sight]) ∧
      (r.sample tx rx fc bw).sight.delay = 0 ∧ ∀ t ∈ ts, 0 ≤ t.delay) := by
  have hv := (C121_sample r h tx rx fc bw hbw)
  constructor
  · intro hk k
    have hl : r.kind.per.los = false := by rcases hk with hk | hk | hk <;> rw [hk] <;> rfl
    have hv' := (C121_sample { r with rice := k } h tx rx fc bw hbw).1
    rw [Cdl.taps_eq hv.1, Cdl.taps_eq hv']
    congr 1
    unfold Sample.all
    congr 1
    · refine List.map_congr_left fun e _ => ?_
      simp only [Sample.ray, Sample.scatter, Realization.sample, hl]
      rfl
    · simp [Realization.sample, hl]
  · intro hk
    have hl : r.kind.per.los = true := by rcases hk with hk | hk <;> rw [hk] <;> rfl
    refine ⟨(r.sample tx rx fc bw).schedule.map (r.sample tx rx fc bw).ray, ?_, hv.2.2.2.1, ?_⟩
    · rw [Cdl.taps_eq hv.1]
      simp [Sample.all, Realization.sample, hl]
    · intro t ht
      obtain ⟨e, he, rfl⟩ := List.mem_map.mp ht
      exact (Cdl.schedule_delay hv.1 e he).1

/-- C121 fails for the configured factor of models with line of sight, which should be the ratio of the powers over the
line of sight and all other rays: it is less than two thirds of it, since the powers scattered include the row of the
table for the line of sight. -/
theorem C121_factor_fails (r : Realization) (h : 0 ≤ r.rms) (tx rx : Dev) (fc bw : ℝ) (hbw : 0 < bw) (ht : Vertical tx)
    (hr : Vertical rx) (hl : r.kind.per.los = true) :
    ∃ ts, (r.sample tx rx fc bw).taps = .ok (ts ++ [(r.sample tx rx fc bw).sight]) ∧
      Cdl.total [(r.sample tx rx fc bw).sight] / Cdl.total ts < 0.66 * (10 : ℝ) ^ (r.rice / 10) := by
  have hv := (C121_sample r h tx rx fc bw hbw)
  set s := r.sample tx rx fc bw with hs
  have hp := plain r tx rx fc bw ht hr
  refine ⟨s.schedule.map s.ray, ?_, ?_⟩
  · rw [Cdl.taps_eq hv.1]
    have : s.los = true := hl
    simp [Sample.all, this]
  · have hK := Cdl.rician_pos s
    have h1 : Cdl.total [s.sight] = s.rician / (1 + s.rician) := by
      simp only [Cdl.total, List.map_cons, List.map_nil, List.sum_cons, List.sum_nil, add_zero]
      unfold Sample.sight
      dsimp only
      rw [Cdl.sandwich_eq, (hp.rx _ _).1, (hp.rx _ _).2, (hp.tx _ _).1, (hp.tx _ _).2]
      have hr : 0 ≤ s.rician / (1 + s.rician) := by positivity
      simp only [Cdl.sightJones, if_true, one_mul, mul_one, mul_zero, zero_mul, add_zero, Complex.norm_real,
        Real.norm_eq_abs, sq_abs]
      rw [show (0.5 : ℝ) = 1 / 2 by norm_num, ← Real.sqrt_eq_rpow, Real.sq_sqrt hr]
    have h2 : Cdl.total (s.schedule.map s.ray) = 1 / (1 + s.rician) * weigh (r.kind.column 1) (splitPowers 0 r.kind.table) := by
      rw [total_profile, rays_moment r tx rx fc bw ht hr 0, ← hs, Cdl.scatter_sq, pow_zero, one_mul]
      have : s.los = true := hl
      rw [if_pos this]
    have hb := (weigh_bounds _ _ _ (checked r.kind) (split_nonneg r.kind 0)).1
    have hn : ∀ k : Kind, k.per.los = true → (154 / 100 : ℚ) ≤ low k.floors (splitPowers 0 k.table) := by
      intro k
      cases k <;> decide +kernel
    have h3 : ((154 / 100 : ℚ) : ℝ) ≤ low r.kind.floors (splitPowers 0 r.kind.table) := by exact_mod_cast hn r.kind hl
    push_cast at h3
    have e : (10 : ℝ) ^ (r.rice / 10) = s.rician := rfl
    rw [h1, h2, e]
    have hw : 0 < weigh (r.kind.column 1) (splitPowers 0 r.kind.table) := by linarith
    have hK' : 0 < s.rician := hK
    rw [div_lt_iff₀ (by positivity)]
    have e2 : 0.66 * s.rician * (1 / (1 + s.rician) * weigh (r.kind.column 1) (splitPowers 0 r.kind.table)) =
      s.rician / (1 + s.rician) * (0.66 * weigh (r.kind.column 1) (splitPowers 0 r.kind.table)) := by ring
    rw [e2]
    have hq : 0 < s.rician / (1 + s.rician) := by positivity
    nlinarith

/-! ### Polarization -/

/-- C121 fails for polarization: transfer to the other polarization is amplified by twice the cross polarization ratio in
decibel, at least 25 times in power, instead of attenuated by it. -/
theorem C121_polarization_fails (r : Realization) (tx rx : Dev) (fc bw : ℝ) (c m : Nat) :
    let s := r.sample tx rx fc bw
    (∀ p, ‖s.jones p p c m‖ ^ 2 = 1) ∧
    ∀ p q, p ≠ q → ‖s.jones p q c m‖ ^ 2 = (10 : ℝ) ^ (2 * (r.kind.per.xpr : ℝ) / 10) ∧ 25 < ‖s.jones p q c m‖ ^ 2 := by
  intro s
  refine ⟨fun p => ?_, fun p q hpq => ?_⟩
  · simp only [s, Realization.sample, Realization.jones, if_true, mul_one, norm_turn]
    norm_num
  · have h1 : ‖s.jones p q c m‖ ^ 2 = (10 : ℝ) ^ (2 * (r.kind.per.xpr : ℝ) / 10) := by
      simp only [s, Realization.sample, Realization.jones, if_neg hpq, norm_mul, norm_turn, one_mul]
      rw [Complex.norm_real, Real.norm_of_nonneg (linear_pos _).le, linear, ← Real.rpow_natCast, ← Real.rpow_mul (by norm_num)]
      congr 1
      push_cast
      ring
    refine ⟨h1, ?_⟩
    rw [h1]
    have h7 : (7 : ℚ) ≤ r.kind.per.xpr := by cases r.kind <;> decide +kernel
    have h7' : (7 : ℝ) ≤ r.kind.per.xpr := by exact_mod_cast h7
    have h2 : (10 : ℝ) ^ (1.4 : ℝ) ≤ (10 : ℝ) ^ (2 * (r.kind.per.xpr : ℝ) / 10) :=
      Real.rpow_le_rpow_of_exponent_le (by norm_num) (by linarith)
    have h3 : (25 : ℝ) < (10 : ℝ) ^ (1.4 : ℝ) := by
      have h : ((10 : ℝ) ^ (1.4 : ℝ)) ^ 5 = 10 ^ 7 := by
        rw [← Real.rpow_natCast, ← Real.rpow_mul (by norm_num)]
        norm_num
      by_contra hc
      have := pow_le_pow_left₀ (Real.rpow_nonneg (by norm_num : (0 : ℝ) ≤ 10) 1.4) (not_lt.mp hc) 5
      rw [h] at this
      norm_num at this
    linarith

/-! ### Channels -/

/-- C121: channels are created from nonnegative parameters only, which they report, and realize. -/
theorem C121_create (kind : Kind) (rms rice dist gain : ℝ) (seed : Option Nat) :
    ((∃ l, Line.make kind rms rice dist gain seed = .ok l) ↔ 0 ≤ rms ∧ 0 ≤ rice ∧ 0 ≤ dist ∧ 0 ≤ gain) ∧
    ∀ l, Line.make kind rms rice dist gain seed = .ok l → l = ⟨kind, rms, rice, dist, gain, seed⟩ ∧
      ∀ draw, (l.realize draw).kind = kind ∧ (l.realize draw).rms = rms ∧ (l.realize draw).rice = rice ∧
        (l.realize draw).gain = gain := by
  have key : ∀ l, Line.make kind rms rice dist gain seed = .ok l →
      l = ⟨kind, rms, rice, dist, gain, seed⟩ ∧ 0 ≤ rms ∧ 0 ≤ rice ∧ 0 ≤ dist ∧ 0 ≤ gain := by
    intro l hl
    unfold Line.make Line.setRms Line.setRice Line.setDecorrelation at hl
    by_cases h1 : gain < 0
    · rw [if_pos h1] at hl; cases hl
    · rw [if_neg h1] at hl
      by_cases h2 : rms < 0
      · rw [if_pos h2] at hl; cases hl
      · rw [if_neg h2] at hl
        by_cases h3 : rice < 0
        · simp only [if_pos h3] at hl; cases hl
        · by_cases h4 : dist < 0
          · simp only [if_neg h3, if_pos h4] at hl; cases hl
          · simp only [if_neg h3, if_neg h4] at hl
            cases hl
            exact ⟨rfl, not_lt.mp h2, not_lt.mp h3, not_lt.mp h4, not_lt.mp h1⟩
  refine ⟨⟨fun ⟨l, hl⟩ => (key l hl).2, fun ⟨h1, h2, h3, h4⟩ => ⟨⟨kind, rms, rice, dist, gain, seed⟩, ?_⟩⟩, fun l hl => ?_⟩
  · unfold Line.make Line.setRms Line.setRice Line.setDecorrelation
    simp only [if_neg (not_lt.mpr h1), if_neg (not_lt.mpr h2), if_neg (not_lt.mpr h3), if_neg (not_lt.mpr h4)]
  · obtain ⟨rfl, -⟩ := key l hl
    exact ⟨rfl, fun draw => ⟨rfl, rfl, rfl, rfl⟩⟩

/-- C121: stored channels are restored with all of their parameters.  Missing: the seed. -/
theorem C121_storage_partial (kind : Kind) (rms rice dist gain : ℝ) (seed : Option Nat) (l : Line)
    (h : Line.make kind rms rice dist gain seed = .ok l) :
    ∃ l', l.serialize.deserialize = .ok l' ∧ l'.kind = l.kind ∧ l'.rms = l.rms ∧ l'.rice = l.rice ∧
      l'.decorrelation = l.decorrelation ∧ l'.gain = l.gain ∧ (seed = none → l' = l) := by
  have hc := C121_create kind rms rice dist gain seed
  obtain ⟨rfl, -⟩ := hc.2 l h
  obtain ⟨l', hl'⟩ := (C121_create kind rms rice dist gain none).1.mpr (hc.1.mp ⟨_, h⟩)
  obtain ⟨rfl, -⟩ := (C121_create kind rms rice dist gain none).2 l' hl'
  exact ⟨_, hl', rfl, rfl, rfl, rfl, rfl, fun hs => by rw [hs]⟩

/-- C121 fails for seeds, which are not stored: restored channels realize differently. -/
theorem C121_seed_fails (kind : Kind) (rms rice dist gain : ℝ) (seed : Nat) (l l' : Line)
    (h : Line.make kind rms rice dist gain (some seed) = .ok l) (h' : l.serialize.deserialize = .ok l') :
    l'.seed = none ∧ ∃ draw, l'.realize draw ≠ l.realize draw := by
  obtain ⟨rfl, -⟩ := (C121_create kind rms rice dist gain (some seed)).2 l h
  obtain ⟨rfl, -⟩ := (C121_create kind rms rice dist gain none).2 l' h'
  refine ⟨rfl, fun s _ => (fun _ _ m => m, fun _ _ _ _ _ _ => if s = none then 0 else 1), fun he => ?_⟩
  have := congrArg (fun r : Realization => r.phase 0 0 0 0 0 0) he
  simp [Line.realize] at this

/-- C121: the sample of the opposite direction exchanges the angles of departure and arrival, and keeps delays and
powers.  Missing: polarizations, which are kept instead of exchanged, as in `C118_reciprocal_fails`. -/
theorem C121_reciprocal_partial (r : Realization) (tx rx : Dev) (fc bw : ℝ) :
    let s := r.sample tx rx fc bw
    let s' := reciprocal s rx tx fc bw
    s'.aoa = s.aod ∧ s'.zoa = s.zod ∧ s'.aod = s.aoa ∧ s'.zod = s.zoa ∧ s'.delays = s.delays ∧ s'.powers = s.powers ∧
      s'.tx = rx ∧ s'.rx = tx ∧ reciprocal s' tx rx fc bw = s :=
  ⟨rfl, rfl, rfl, rfl, rfl, rfl, rfl, rfl, rfl⟩

/-! Hypotheses are met. -/

noncomputable def someStatic (k : Kind) : Realization := ⟨k, 1e-7, 0, fun _ _ m => m, fun _ _ _ _ _ _ => 0, 1⟩

example (k : Kind) : Coupled (someStatic k) := fun _ _ => Set.bijOn_id _

example : 0 ≤ (someStatic .A).rms := by norm_num [someStatic]

example : Vertical ⟨0, 0, 1, 1, 1, fun _ _ _ _ p => if p = 0 then 1 else 0⟩ := fun _ _ _ => ⟨rfl, rfl⟩

example : (someStatic .B).kind.per.los = false ∧ (someStatic .E).kind.per.los = true := ⟨rfl, rfl⟩

end Verif.CdlStatic
