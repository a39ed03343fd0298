import Verif.Channel.ClusterDraw
import Mathlib.Analysis.SpecialFunctions.Log.Base
import Mathlib.Data.List.Sort
import Mathlib.Algebra.Order.BigOperators.Group.List

/-!
# C119: delays, powers and losses of cluster delay line channels
-/

namespace Verif.CdlDraw

open Verif Verif.Core
open Verif.Cdl (Sample)
open Verif.RadarChannel (Dev light maxOf)

/-! ### Large scale parameters -/

/-- C119: whatever numbers are drawn, spreads are positive, azimuth spreads at most 104 and zenith spreads at most 52
degrees, and below these limits logarithms of the spreads and the Rice factor are the scenario's mean plus its
deviation times the number drawn. -/
theorem C119_large_scale (mean std z : Nat → ℝ) :
    let g := largeScale mean std z
    0 < g.ds ∧ (0 < g.asd ∧ g.asd ≤ 104) ∧ (0 < g.asa ∧ g.asa ≤ 104) ∧ (0 < g.zsa ∧ g.zsa ≤ 52) ∧
      (0 < g.zsd ∧ g.zsd ≤ 52) ∧ Real.logb 10 g.ds = mean 0 + std 0 * z 0 ∧
      (g.asd < 104 → Real.logb 10 g.asd = mean 1 + std 1 * z 1) ∧
      (g.asa < 104 → Real.logb 10 g.asa = mean 2 + std 2 * z 2) ∧
      (g.zsa < 52 → Real.logb 10 g.zsa = mean 3 + std 3 * z 3) ∧
      (g.zsd < 52 → Real.logb 10 g.zsd = mean 4 + std 4 * z 4) ∧ g.k = mean 5 + std 5 * z 5 := by
  have hp : ∀ x : ℝ, 0 < (10 : ℝ) ^ x := fun x => Real.rpow_pos_of_pos (by norm_num) x
  have hl : ∀ x : ℝ, Real.logb 10 ((10 : ℝ) ^ x) = x := fun x => Real.logb_rpow (by norm_num) (by norm_num)
  have hm : ∀ x b : ℝ, min ((10 : ℝ) ^ x) b < b → Real.logb 10 (min ((10 : ℝ) ^ x) b) = x := by
    intro x b h
    rw [min_eq_left (by by_contra hc; rw [min_eq_right (le_of_not_ge hc)] at h; exact lt_irrefl _ h), hl]
  refine ⟨hp _, ⟨lt_min (hp _) (by norm_num), min_le_right _ _⟩, ⟨lt_min (hp _) (by norm_num), min_le_right _ _⟩,
    ⟨lt_min (hp _) (by norm_num), min_le_right _ _⟩, ⟨lt_min (hp _) (by norm_num), min_le_right _ _⟩, hl _,
    hm _ _, hm _ _, hm _ _, hm _ _, rfl⟩

/-! ### Delays -/

/-- C119: the delays of the clusters are as many as the scenario has clusters, sorted, and start at zero. They are the
exponentially distributed delays of the scenario relative to the first, which is kept without line of sight. With line
of sight they are scaled, as long as the scale is positive. -/
theorem C119_delays_partial (r ds k : ℝ) (los : Bool) (num : Nat) (x : List ℝ) (hr : 0 < r) (hds : 0 < ds)
    (hx : ∀ u ∈ x, 0 < u ∧ u < 1) (hnum : 0 < num) (hne : x ≠ []) :
    ∃ (raw scaled : List ℝ) (least : ℝ), clusterDelays r ds k los num x = .ok (raw, scaled, least) ∧
      raw.length = min num x.length ∧ raw.head? = some 0 ∧ raw.Pairwise (· ≤ ·) ∧ (∀ d ∈ raw, 0 ≤ d) ∧
      (∃ m : ℝ, 0 < m ∧ (raw.map (· + m)).Perm ((x.take num).map fun u => r * ds * Real.log (1 / u)) ∧
        (los = false → least = m)) ∧
      (los = false → scaled = raw) ∧
      (los = true → least = 0 ∧ scaled = raw.map (· / riceScale k) ∧ (0 < riceScale k →
        scaled.head? = some 0 ∧ scaled.Pairwise (· ≤ ·) ∧ ∀ d ∈ scaled, 0 ≤ d)) := by
  set drawn := (x.take num).map fun u => -r * ds * Real.log u with hdrawn
  have hperm := List.perm_insertionSort (· ≤ ·) drawn
  have hsort := List.pairwise_insertionSort (· ≤ ·) drawn
  have hlen : (drawn.insertionSort (· ≤ ·)).length = min num x.length := by
    rw [hperm.length_eq, hdrawn, List.length_map, List.length_take]
  have hxl : 0 < x.length := List.length_pos_of_ne_nil hne
  have hpos : ∀ d ∈ drawn, 0 < d := by
    intro d hd
    obtain ⟨u, hu, rfl⟩ := List.mem_map.mp hd
    have h1 := hx u (List.mem_of_mem_take hu)
    have h2 := Real.log_neg h1.1 h1.2
    have h3 := mul_pos hr hds
    nlinarith
  have hdr : drawn = (x.take num).map fun u => r * ds * Real.log (1 / u) := by
    rw [hdrawn]
    refine List.map_congr_left fun u _ => ?_
    rw [one_div, Real.log_inv]
    ring
  have hcd : clusterDelays r ds k los num x = match drawn.insertionSort (· ≤ ·) with
    | [] => .error .index
    | m :: _ =>
      let raw := (drawn.insertionSort (· ≤ ·)).map fun d => d - m
      .ok (if los then (raw, raw.map fun d => d / riceScale k, 0) else (raw, raw, m)) := rfl
  rw [hcd]
  cases hs : drawn.insertionSort (· ≤ ·) with
  | nil => rw [hs] at hlen; simp at hlen; omega
  | cons m l =>
    rw [hs] at hperm hsort hlen
    have hm : 0 < m := hpos m (hperm.subset List.mem_cons_self)
    have hml : ∀ d ∈ m :: l, m ≤ d := by
      intro d hd
      rcases List.mem_cons.mp hd with rfl | hd
      · exact le_rfl
      · exact List.rel_of_pairwise_cons hsort hd
    set raw := (m :: l).map fun d => d - m with hraw
    have hrl : raw.length = min num x.length := by rw [hraw, List.length_map, hlen]
    have hrh : raw.head? = some 0 := by simp [hraw]
    have hrs : raw.Pairwise (· ≤ ·) := by
      rw [hraw, List.pairwise_map]
      exact hsort.imp fun h => sub_le_sub_right h m
    have hrn : ∀ d ∈ raw, 0 ≤ d := by
      intro d hd
      obtain ⟨e, he, rfl⟩ := List.mem_map.mp hd
      exact sub_nonneg.mpr (hml e he)
    have hrm : (raw.map (· + m)).Perm ((x.take num).map fun u => r * ds * Real.log (1 / u)) := by
      rw [← hdr, hraw, List.map_map]
      refine List.Perm.trans (List.Perm.of_eq ?_) hperm
      conv_rhs => rw [← List.map_id (m :: l)]
      refine List.map_congr_left fun d _ => ?_
      simp
    cases los with
    | false => exact ⟨raw, raw, m, rfl, hrl, hrh, hrs, hrn, ⟨m, hm, hrm, fun _ => rfl⟩, fun _ => rfl, by simp⟩
    | true =>
      refine ⟨raw, raw.map (· / riceScale k), 0, rfl, hrl, hrh, hrs, hrn, ⟨m, hm, hrm, by simp⟩, by simp,
        fun _ => ⟨rfl, rfl, fun hk => ⟨?_, ?_, ?_⟩⟩⟩
      · rw [List.head?_map, hrh]; simp
      · rw [List.pairwise_map]
        exact hrs.imp fun h => div_le_div_of_nonneg_right h hk.le
      · intro d hd
        obtain ⟨e, he, rfl⟩ := List.mem_map.mp hd
        exact div_nonneg (hrn e he) hk.le

example : ∃ raw scaled least, clusterDelays 2.5 1e-7 9 true 12 [0.5, 0.25, 0.75] = .ok (raw, scaled, least) ∧
    scaled.length = 3 ∧ ∀ d ∈ scaled, 0 ≤ d := by
  obtain ⟨raw, scaled, least, h, hl, _, _, _, _, _, h6⟩ := C119_delays_partial 2.5 1e-7 9 true 12 [0.5, 0.25, 0.75]
    (by norm_num) (by norm_num) (by intro u hu; simp at hu; rcases hu with rfl | rfl | rfl <;> norm_num) (by norm_num)
    (by simp)
  refine ⟨raw, scaled, least, h, ?_, ((h6 rfl).2.2 (by norm_num [riceScale])).2.2⟩
  rw [(h6 rfl).2.1, List.length_map, hl]
  rfl

/-- C119: with line of sight the delays are those without, divided by a cubic polynomial of the Rice factor; the powers are drawn
from the delays before the division. -/
theorem C119_rice_scale (r ds k : ℝ) (num : Nat) (x raw scaled : List ℝ) (least : ℝ)
    (h : clusterDelays r ds k true num x = .ok (raw, scaled, least)) :
    scaled = raw.map (· / (0.775 - 0.0433 * k + 0.0002 * k ^ 2 + 0.00017 * k ^ 3)) ∧
      ∃ m, clusterDelays r ds k false num x = .ok (raw, raw, m) := by
  have hk : riceScale k = 0.775 - 0.0433 * k + 0.0002 * k ^ 2 + 0.00017 * k ^ 3 := by
    unfold riceScale
    norm_num
  unfold clusterDelays at h ⊢
  dsimp only at h ⊢
  split at h
  · cases h
  · next m l hm =>
    rw [if_pos rfl] at h
    cases h
    rw [← hk]
    exact ⟨rfl, m, rfl⟩

/-- C119 fails for low Rice factors, which are normally distributed: the scale of the delays becomes negative, and all
clusters arrive before the first one. -/
theorem C119_delays_fails :
    (∀ k : ℝ, k ≤ -25 → riceScale k < 0) ∧
    ∀ (r ds k : ℝ) (num : Nat) (x : List ℝ) (raw scaled : List ℝ) (least : ℝ), 0 < r → 0 < ds →
      (∀ u ∈ x, 0 < u ∧ u < 1) → 0 < num → x ≠ [] → clusterDelays r ds k true num x = .ok (raw, scaled, least) →
      riceScale k < 0 → scaled.length = raw.length ∧ ∀ i (h : i < scaled.length) (h' : i < raw.length),
        0 < raw[i] → scaled[i] < 0 := by
  constructor
  · intro k hk
    unfold riceScale
    nlinarith [mul_nonneg (mul_nonneg (by linarith : (0 : ℝ) ≤ -25 - k) (by linarith : (0 : ℝ) ≤ -25 - k))
      (by linarith : (0 : ℝ) ≤ -25 - k), mul_nonneg (by linarith : (0 : ℝ) ≤ -25 - k) (by linarith : (0 : ℝ) ≤ -25 - k)]
  · intro r ds k num x raw scaled least hr hds hx hnum hne h hk
    obtain ⟨raw', scaled', least', h', _, _, _, _, _, _, h6⟩ := C119_delays_partial r ds k true num x hr hds hx hnum hne
    rw [h] at h'
    cases h'
    obtain ⟨_, rfl, _⟩ := h6 rfl
    refine ⟨by simp, fun i hi hi' hp => ?_⟩
    rw [List.getElem_map]
    exact div_neg_of_pos_of_neg hp hk

/-! ### Powers -/

theorem cutoff_pos : 0 < (10 : ℝ) ^ (-25 / 10 : ℝ) := Real.rpow_pos_of_pos (by norm_num) _

theorem cutoff_lt : (10 : ℝ) ^ (-25 / 10 : ℝ) < 1 := by
  apply Real.rpow_lt_one_of_one_lt_of_neg <;> norm_num

theorem sum_pos_of {l : List ℝ} (hne : l ≠ []) (h : ∀ x ∈ l, 0 < x) : 0 < l.sum := by
  cases l with
  | nil => exact absurd rfl hne
  | cons a l =>
    rw [List.sum_cons]
    have h1 := h a List.mem_cons_self
    have h2 : 0 ≤ l.sum := List.sum_nonneg fun x hx => (h x (List.mem_cons_of_mem _ hx)).le
    linarith

theorem sum_div (l : List ℝ) (c : ℝ) : (l.map fun x => x / c).sum = l.sum / c := by
  induction l with
  | nil => simp
  | cons a l ih => simp [ih, add_div]

theorem sum_filter_add (l : List ℝ) (q : ℝ → Bool) :
    (l.filter q).sum + (l.filter fun x => !q x).sum = l.sum := by
  induction l with
  | nil => simp
  | cons a l ih =>
    cases h : q a <;> simp [h] <;> linarith

/-- C119: without line of sight, powers of the clusters are those of the exponential delay profile and the shadowing
drawn, and sum to one before weak clusters are eliminated. Clusters within 25 dB of the strongest one are never
eliminated, and less than 0.4 percent of the power is lost by each cluster which is. -/
theorem C119_powers_partial (r ds k std : ℝ) (num : Nat) (delays shadow : List ℝ) (q : List ℝ)
    (hq : q = List.zipWith (fun d z => Real.exp (-d * (r - 1) / (r * ds)) * (10 : ℝ) ^ (-(std * z) / 10)) delays
      (shadow.take num)) (hne : q ≠ []) :
    ∃ p, clusterPowers r ds k std false num delays shadow = .ok p ∧ p ≠ [] ∧
      p.Sublist (q.map fun x => x / q.sum) ∧ (q.map fun x => x / q.sum).sum = 1 ∧
      (∀ x ∈ p, 0 < x ∧ x ≤ 1) ∧ p.sum ≤ 1 ∧ 1 - p.sum ≤ (q.length - p.length) * (10 : ℝ) ^ (-25 / 10 : ℝ) ∧
      (∀ x ∈ q, (∀ y ∈ q, y * (10 : ℝ) ^ (-25 / 10 : ℝ) ≤ x) → x / q.sum ∈ p) := by
  have hprof : profile r ds std num delays shadow = q := by
    rw [hq, profile]
    congr 1
    funext d z
    congr 2
    ring
  have hqpos : ∀ x ∈ q, 0 < x := by
    intro x hx
    rw [hq, List.zipWith_eq_zipWith_take_min] at hx
    obtain ⟨a, ha⟩ := List.mem_iff_getElem.mp hx
    obtain ⟨h1, rfl⟩ := ha
    rw [List.getElem_zipWith]
    exact mul_pos (Real.exp_pos _) (Real.rpow_pos_of_pos (by norm_num) _)
  have hsum := sum_pos_of hne hqpos
  set n := q.map fun x => x / q.sum with hn
  have hone : n.sum = 1 := by rw [hn, sum_div, div_self hsum.ne']
  have hnpos : ∀ x ∈ n, 0 < x := by
    intro x hx
    obtain ⟨y, hy, rfl⟩ := List.mem_map.mp hx
    exact div_pos (hqpos y hy) hsum
  have hnle : ∀ x ∈ n, x ≤ 1 := by
    intro x hx
    rw [← hone]
    exact List.single_le_sum (fun y hy => (hnpos y hy).le) x hx
  have hcp : clusterPowers r ds k std false num delays shadow = cutoff n := by
    unfold clusterPowers
    rw [hprof]
    simp [normalized, hn]
  rw [hcp]
  cases hc : n with
  | nil => rw [hn] at hc; simp at hc; exact absurd hc hne
  | cons a l =>
    have ha : a ∈ n := by rw [hc]; exact List.mem_cons_self
    refine ⟨(a :: l).filter fun x => decide (a * (10 : ℝ) ^ (-25 / 10 : ℝ) ≤ x), rfl, ?_, ?_, ?_, ?_, ?_, ?_, ?_⟩
    · apply List.ne_nil_of_mem (a := a)
      rw [List.mem_filter]
      refine ⟨List.mem_cons_self, decide_eq_true ?_⟩
      nlinarith [hnpos a ha, cutoff_lt]
    · exact List.filter_sublist
    · rw [← hc]; exact hone
    · intro x hx
      have := (List.mem_filter.mp hx).1
      rw [← hc] at this
      exact ⟨hnpos x this, hnle x this⟩
    · rw [← hone, ← hc, ← sum_filter_add n fun x => decide (a * (10 : ℝ) ^ (-25 / 10 : ℝ) ≤ x)]
      have : 0 ≤ (n.filter fun x => !decide (a * (10 : ℝ) ^ (-25 / 10 : ℝ) ≤ x)).sum :=
        List.sum_nonneg fun x hx => (hnpos x (List.mem_filter.mp hx).1).le
      linarith
    · rw [← hc]
      have h1 := sum_filter_add n fun x => decide (a * (10 : ℝ) ^ (-25 / 10 : ℝ) ≤ x)
      have h2 : (n.filter fun x => !decide (a * (10 : ℝ) ^ (-25 / 10 : ℝ) ≤ x)).sum ≤
          (n.filter fun x => !decide (a * (10 : ℝ) ^ (-25 / 10 : ℝ) ≤ x)).length • (10 : ℝ) ^ (-25 / 10 : ℝ) := by
        apply List.sum_le_card_nsmul
        intro x hx
        have hx' := (List.mem_filter.mp hx).2
        simp only [Bool.not_eq_true', decide_eq_false_iff_not, not_le] at hx'
        nlinarith [hnle a ha, cutoff_pos]
      have h3 : (n.filter fun x => decide (a * (10 : ℝ) ^ (-25 / 10 : ℝ) ≤ x)).length +
          (n.filter fun x => !decide (a * (10 : ℝ) ^ (-25 / 10 : ℝ) ≤ x)).length = n.length := by
        have := List.length_eq_length_filter_add (l := n) (fun x => decide (a * (10 : ℝ) ^ (-25 / 10 : ℝ) ≤ x))
        omega
      have h4 : n.length = q.length := by rw [hn, List.length_map]
      rw [nsmul_eq_mul] at h2
      have h5 : ((n.filter fun x => decide (a * (10 : ℝ) ^ (-25 / 10 : ℝ) ≤ x)).length : ℝ) +
          ((n.filter fun x => !decide (a * (10 : ℝ) ^ (-25 / 10 : ℝ) ≤ x)).length : ℝ) = q.length := by
        rw [← h4]; exact_mod_cast h3
      have h6 : (q.length : ℝ) - (n.filter fun x => decide (a * (10 : ℝ) ^ (-25 / 10 : ℝ) ≤ x)).length =
          (n.filter fun x => !decide (a * (10 : ℝ) ^ (-25 / 10 : ℝ) ≤ x)).length := by linarith
      rw [h6]
      linarith
    · intro x hx hall
      rw [← hc, List.mem_filter]
      refine ⟨List.mem_map.mpr ⟨x, hx, rfl⟩, decide_eq_true ?_⟩
      obtain ⟨y, hy, hya⟩ := List.mem_map.mp (hn ▸ ha)
      rw [← hya, div_mul_eq_mul_div]
      exact div_le_div_of_nonneg_right (hall y hy) hsum.le

/-- C119 fails for the elimination of weak clusters: powers are compared with the first cluster instead of the
strongest. Whatever the scenario, with clusters which are 30 dB below the strongest one, none is eliminated if the
first is one of them. -/
theorem C119_cutoff_fails (r ds k std : ℝ) (hstd : 0 < std) :
    ∃ (delays shadow p : List ℝ), delays = [0, 0] ∧ clusterPowers r ds k std false 2 delays shadow = .ok p ∧
      ∃ x ∈ p, ∃ y ∈ p, x < y * (10 : ℝ) ^ (-25 / 10 : ℝ) := by
  have hprof : profile r ds std 2 [0, 0] [30 / std * 10 / 10, 0] = [1 / 1000, 1] := by
    simp only [profile, List.take, List.zipWith]
    congr 1
    · have : (-0.1 * (0 + std * (30 / std * 10 / 10)) : ℝ) = ((-3 : ℤ) : ℝ) := by
        push_cast; field_simp; norm_num
      rw [this, Real.rpow_intCast]
      norm_num
    · norm_num
  have h32 : (1 / 1000 : ℝ) = (10 : ℝ) ^ (-3 : ℝ) := by
    have : (-3 : ℝ) = ((-3 : ℤ) : ℝ) := by norm_num
    rw [this, Real.rpow_intCast]
    norm_num
  have hlt : (1 / 1000 : ℝ) < (10 : ℝ) ^ (-25 / 10 : ℝ) := by
    rw [h32]
    exact Real.rpow_lt_rpow_of_exponent_lt (by norm_num) (by norm_num)
  refine ⟨[0, 0], [30 / std * 10 / 10, 0], [1 / 1000 / (1001 / 1000), 1 / (1001 / 1000)], rfl, ?_,
    1 / 1000 / (1001 / 1000), by simp, 1 / (1001 / 1000), by simp, ?_⟩
  · unfold clusterPowers
    rw [hprof]
    have hs : ([1 / 1000, 1] : List ℝ).sum = 1001 / 1000 := by norm_num
    simp only [normalized, Bool.false_eq_true, if_false, List.map_cons, List.map_nil, hs, cutoff]
    refine congrArg Except.ok (List.filter_eq_self.mpr fun x hx => decide_eq_true ?_)
    have h1 := cutoff_lt
    rcases List.mem_cons.mp hx with rfl | hx
    · nlinarith
    · rw [List.mem_singleton.mp hx]
      nlinarith
  · nlinarith

/-- C119 fails for the profile with line of sight: the share of the line of sight is added to the first scattered
cluster, although samples add it once more as a component of its own. The power of the first cluster relative to any
other exceeds the profile by the Rice factor times the power of all clusters. -/
theorem C119_sight_share_fails (k a : ℝ) (l : List ℝ) (ha : 0 < a) (hl : ∀ x ∈ l, 0 < x) :
    ∃ (z : ℝ) (p : List ℝ), normalized k true (a :: l) = .ok (z :: p) ∧ p.length = l.length ∧ (z :: p).sum = 1 ∧
      z = (a / (a :: l).sum + (10 : ℝ) ^ (k / 10)) / (1 + (10 : ℝ) ^ (k / 10)) ∧
      ∀ i (h : i < l.length) (h' : i < p.length),
        z / p[i] = (a + (10 : ℝ) ^ (k / 10) * (a :: l).sum) / l[i] ∧ a / l[i] < z / p[i] := by
  have hK : 0 < (10 : ℝ) ^ (k / 10) := Real.rpow_pos_of_pos (by norm_num) _
  set K := (10 : ℝ) ^ (k / 10) with hKd
  have hs : 0 < (a :: l).sum := sum_pos_of (by simp) (by
    intro x hx
    rcases List.mem_cons.mp hx with rfl | hx
    · exact ha
    · exact hl x hx)
  set S := (a :: l).sum with hS
  have hKs : (1 + K) * S ≠ 0 := by positivity
  refine ⟨a / ((1 + K) * S) + K / (1 + K), l.map fun x => x / ((1 + K) * S), ?_, by simp, ?_, ?_, ?_⟩
  · simp only [normalized, if_true, List.map_cons]
    rfl
  · rw [List.sum_cons, sum_div]
    have h1 : a + l.sum = S := by rw [hS, List.sum_cons]
    have h2 : l.sum = S - a := by linarith
    rw [h2]
    field_simp
    ring
  · field_simp
  · intro i h h'
    rw [List.getElem_map]
    have hx := hl l[i] (List.getElem_mem h)
    have he : (a / ((1 + K) * S) + K / (1 + K)) / (l[i] / ((1 + K) * S)) = (a + K * S) / l[i] := by
      field_simp
    refine ⟨he, ?_⟩
    rw [he]
    apply div_lt_div_of_pos_right _ hx
    nlinarith

/-! ### Pairing of delays and powers -/

/-- C119: clusters have the delays and the powers drawn for them, as long as no cluster is eliminated which is followed
by one which is not. -/
theorem C119_pairing_partial (τ π p : List ℝ) (n : Nat) (hp : cutoff π = .ok p)
    (hkept : ∀ x ∈ π.take n, π.headD 0 * (10 : ℝ) ^ (-25 / 10 : ℝ) ≤ x)
    (hgone : ∀ x ∈ π.drop n, x < π.headD 0 * (10 : ℝ) ^ (-25 / 10 : ℝ)) :
    (τ.take p.length).zip p = (τ.zip π).take n := by
  cases hc : π with
  | nil => rw [hc] at hp; exact absurd hp (by simp [cutoff])
  | cons a l =>
    have hp' : p = π.filter fun x => decide (a * (10 : ℝ) ^ (-25 / 10 : ℝ) ≤ x) := by
      rw [hc] at hp ⊢
      simp only [cutoff, Except.ok.injEq] at hp
      exact hp.symm
    rw [hc, List.headD_cons] at hkept hgone
    have hpt : p = π.take n := by
      rw [hp']
      conv_lhs => rw [← List.take_append_drop n π]
      rw [List.filter_append, List.filter_eq_self.mpr fun x hx => decide_eq_true (hkept x (hc ▸ hx)),
        List.filter_eq_nil_iff.mpr, List.append_nil]
      intro x hx
      rw [decide_eq_true_eq, not_le]
      exact hgone x (hc ▸ hx)
    rw [← hc, hpt, List.length_take]
    apply List.ext_getElem
    · simp; omega
    · intro i h2 h3
      simp

example : (([0, 1, 2] : List ℝ).take ([1, 1] : List ℝ).length).zip ([1, 1] : List ℝ) =
    (([0, 1, 2] : List ℝ).zip [1, 1, 0]).take 2 :=
  C119_pairing_partial [0, 1, 2] [1, 1, 0] [1, 1] 2 (by
    simp only [cutoff, one_mul]
    rw [List.filter_cons_of_pos (by simp [cutoff_lt.le]), List.filter_cons_of_pos (by simp [cutoff_lt.le]),
      List.filter_cons_of_neg (by simp [cutoff_pos])]
    rfl) (by simp [cutoff_lt.le]) (by simp [cutoff_pos])

/-- C119 fails for eliminated clusters: their powers are removed, but not their delays. Every cluster behind an
eliminated one arrives at the delay of an earlier cluster. -/
theorem C119_pairing_fails (τ π p : List ℝ) (hlen : τ.length = π.length) (hτ : τ.Pairwise (· < ·))
    (hp : cutoff π = .ok p) (j i : Nat) (hji : j < i) (hi : i < π.length)
    (hj : π[j] < π.headD 0 * (10 : ℝ) ^ (-25 / 10 : ℝ)) (hk : π.headD 0 * (10 : ℝ) ^ (-25 / 10 : ℝ) ≤ π[i]) :
    ∃ c, c < i ∧ p[c]? = some π[i] ∧ ∃ d e, (τ.take p.length)[c]? = some d ∧ τ[i]? = some e ∧ d < e := by
  obtain ⟨a, l, hc⟩ : ∃ a l, π = a :: l := by
    cases π with
    | nil => exact absurd hi (by simp)
    | cons a l => exact ⟨a, l, rfl⟩
  have hp' : p = π.filter fun x => decide (a * (10 : ℝ) ^ (-25 / 10 : ℝ) ≤ x) := by
    rw [hc] at hp
    simp only [cutoff, Except.ok.injEq] at hp
    rw [← hp, hc]
  have hh : π.headD 0 = a := by rw [hc]; rfl
  rw [hh] at hj hk
  set f : ℝ → Bool := fun x => decide (a * (10 : ℝ) ^ (-25 / 10 : ℝ) ≤ x) with hf
  set c := ((π.take i).filter f).length with hcd
  have hlt : c < i := by
    have h1 : (π.take i).length = i := by rw [List.length_take]; omega
    have h2 : c ≤ (π.take i).length := List.length_filter_le _ _
    rcases Nat.lt_or_ge c i with h | h
    · exact h
    · have h3 : ((π.take i).filter f).length = (π.take i).length := by omega
      have h4 := List.length_filter_eq_length_iff.mp h3 π[j] (by
        rw [List.mem_take_iff_getElem]
        exact ⟨j, by omega, rfl⟩)
      rw [hf] at h4
      exact absurd (of_decide_eq_true h4) (not_le.mpr hj)
  have hsplit : p = (π.take i).filter f ++ (π[i] :: (π.drop (i + 1)).filter f) := by
    rw [hp']
    conv_lhs => rw [← List.take_append_drop i π, List.drop_eq_getElem_cons hi]
    rw [List.filter_append, List.filter_cons_of_pos (by rw [hf]; exact decide_eq_true hk)]
  have hpc : p[c]? = some π[i] := by
    rw [hsplit, List.getElem?_append_right (le_of_eq hcd.symm), ← hcd, Nat.sub_self]
    rfl
  have hcl : c < p.length := by rw [hsplit, List.length_append, ← hcd, List.length_cons]; omega
  refine ⟨c, hlt, hpc, τ[c], τ[i], ?_, ?_, ?_⟩
  · rw [List.getElem?_take_of_lt hcl, List.getElem?_eq_getElem]
  · rw [List.getElem?_eq_getElem]
  · exact List.pairwise_iff_getElem.mp hτ c i (by omega) (by omega) hlt

end Verif.CdlDraw
