import Mathlib.Analysis.Complex.Norm
import Mathlib.Data.List.Sort
import Verif.Modem.ChirpFsk

/-!
# C90: synchronization by correlation with the pilot section

`hermespy/modem/waveform_correlation_synchronization.py`.  `scipy.signal.correlate` is exact, `scipy.signal.find_peaks` is
modelled after its documentation and implementation, `np.argsort` orders equal peaks arbitrarily.
-/

namespace Verif.CorrSync

open Verif.ChirpFsk (argmax argmax_lt argmax_spec)

/-- `CorrelationSynchronization.__init__`, lines 41-70, with the setters of lines 85-92 and 110-117. -/
structure Config where
  threshold : ℚ
  guardRatio : ℚ
  prominence : ℚ

/-- Constructor and setters, `modem/waveform_correlation_synchronization.py` 66-70, 85-92 and 110-117. -/
def Config.new (threshold guardRatio prominence : ℚ) : Except PyErr Config :=
  if threshold < 0 ∨ threshold > 1 then .error .value
  else if guardRatio < 0 ∨ guardRatio > 1 then .error .value
  else .ok ⟨threshold, guardRatio, prominence⟩

/-- Sample of a stream, zero outside. -/
def at' (x : List ℂ) (t : ℤ) : ℂ := if 0 ≤ t then x.getD t.toNat 0 else 0

/-- `correlate(stream, pilot, mode="full")` at an index. -/
noncomputable def correlate (x p : List ℂ) (k : ℕ) : ℂ :=
  ∑ n ∈ Finset.range p.length, at' x ((k : ℤ) - (p.length - 1) + n) * (starRingEnd ℂ) (p.getD n 0)

/-- Lines 141-144: magnitudes summed over all streams. -/
noncomputable def profile (streams : List (List ℂ)) (p : List ℂ) (k : ℕ) : ℝ := (streams.map fun x => ‖correlate x p k‖).sum

/-- The inner loop of `_local_maxima_1d` of scipy: the first index from `i` on which differs, at most the last one. -/
noncomputable def ahead (x : ℕ → ℝ) (last : ℕ) (v : ℝ) : ℕ → ℕ → ℕ
  | 0, i => i
  | fuel + 1, i => if i < last ∧ x i = v then ahead x last v fuel (i + 1) else i

/-- `_local_maxima_1d` of scipy: middles of plateaus which are left and right surrounded by smaller values. -/
noncomputable def localMaxima (x : ℕ → ℝ) (last : ℕ) : ℕ → ℕ → List ℕ
  | 0, _ => []
  | fuel + 1, i =>
    if i < last then
      if x (i - 1) < x i then
        let a := ahead x last (x i) last (i + 1)
        if x a < x i then (i + (a - 1)) / 2 :: localMaxima x last fuel (a + 1)
        else localMaxima x last fuel (i + 1)
      else localMaxima x last fuel (i + 1)
    else []

/-- `_select_by_peak_distance` of scipy, peaks in order of decreasing priority: those too close to one already kept are
dropped. -/
def thin (dist : ℕ) : List ℕ → List ℕ → List ℕ
  | [], kept => kept
  | p :: ps, kept => if ∃ k ∈ kept, p < k + dist ∧ k < p + dist then thin dist ps kept else thin dist ps (p :: kept)

/-- `find_peaks(x, height=0.9, distance=dist)` of `n` values; `sort` lists peaks by decreasing height. -/
noncomputable def findPeaks (x : ℕ → ℝ) (n dist : ℕ) (sort : (ℕ → ℝ) → List ℕ → List ℕ) : List ℕ :=
  let peaks := (localMaxima x (n - 1) n 1).filter fun k => decide (9 / 10 ≤ x k)
  let kept := thin dist (sort x peaks) []
  peaks.filter fun k => decide (k ∈ kept)

/-- What `np.argsort` guarantees of the reversed order. -/
def Sorts (sort : (ℕ → ℝ) → List ℕ → List ℕ) : Prop :=
  ∀ x l, (sort x l).Perm l ∧ (sort x l).Pairwise fun a b => x b ≤ x a

/-- `synchronize`, lines 119-170, of streams of `S` samples.  A silent signal is divided by zero, and no number compares with
the resulting NaN. -/
noncomputable def Config.synchronize (_c : Config) (sort : (ℕ → ℝ) → List ℕ → List ℕ) (pilot : List ℂ) (L : ℕ)
    (streams : List (List ℂ)) (S : ℕ) : Except PyErr (List ℤ) :=
  if streams = [] ∨ S = 0 then .ok []
  else if pilot = [] then .error .runtime
  else
    let n := pilot.length + S - 1
    let c := profile streams pilot
    let m := c (argmax c n)
    if 4 * L / 5 < 1 then .error .value
    else
      let peaks := if m = 0 then [] else findPeaks (fun k => c k / m) n (4 * L / 5) sort
      .ok (peaks.map fun (k : ℕ) =>
        let i := (k : ℤ) - (pilot.length - 1)
        let i := if i < 0 then 0 else i
        if i > (S : ℤ) - L then |(S : ℤ) - L| else i)

/-! ### Peaks -/

theorem ahead_ge (x : ℕ → ℝ) (last : ℕ) (v : ℝ) (fuel i : ℕ) : i ≤ ahead x last v fuel i := by
  induction fuel generalizing i with
  | zero => exact le_rfl
  | succ f ih =>
    rw [ahead]
    split
    · exact le_trans (by omega) (ih (i + 1))
    · exact le_rfl

theorem ahead_le (x : ℕ → ℝ) (last : ℕ) (v : ℝ) (fuel i K : ℕ) (hi : i ≤ K) (hK : x K ≠ v) : ahead x last v fuel i ≤ K := by
  induction fuel generalizing i with
  | zero => exact hi
  | succ f ih =>
    rw [ahead]
    split
    · rename_i h
      have : i ≠ K := by rintro rfl; exact hK h.2
      exact ih (i + 1) (by omega)
    · exact hi

theorem ahead_last (x : ℕ → ℝ) (last : ℕ) (v : ℝ) (fuel i : ℕ) (hi : i ≤ last) : ahead x last v fuel i ≤ last := by
  induction fuel generalizing i with
  | zero => exact hi
  | succ f ih =>
    rw [ahead]
    split
    · rename_i h
      exact ih (i + 1) (by omega)
    · exact hi

theorem localMaxima_ge (x : ℕ → ℝ) (last fuel i : ℕ) : ∀ k ∈ localMaxima x last fuel i, i ≤ k ∧ k < last := by
  induction fuel generalizing i with
  | zero => intro k hk; cases hk
  | succ f ih =>
    intro k hk
    rw [localMaxima] at hk
    split at hk
    · rename_i hi
      split at hk
      · simp only at hk
        have ha := ahead_ge x last (x i) last (i + 1)
        have hl := ahead_last x last (x i) last (i + 1) (by omega)
        split at hk
        · rcases List.mem_cons.mp hk with rfl | hk
          · omega
          · have := ih _ k hk
            omega
        · have := ih _ k hk
          omega
      · have := ih _ k hk
        omega
    · cases hk

theorem localMaxima_sorted (x : ℕ → ℝ) (last fuel i : ℕ) : (localMaxima x last fuel i).Pairwise (· < ·) := by
  induction fuel generalizing i with
  | zero => exact List.Pairwise.nil
  | succ f ih =>
    rw [localMaxima]
    split
    · split
      · simp only
        have ha := ahead_ge x last (x i) last (i + 1)
        split
        · refine List.pairwise_cons.mpr ⟨fun k hk => ?_, ih _⟩
          have := (localMaxima_ge x last f _ k hk).1
          omega
        · exact ih _
      · exact ih _
    · exact List.Pairwise.nil

/-- A strict maximum which is neither the first nor the last value is found. -/
theorem mem_localMaxima (x : ℕ → ℝ) (last K : ℕ) (hK : K < last) (h1 : 1 ≤ K) (hmax : ∀ k ≤ last, k ≠ K → x k < x K) (fuel i : ℕ)
    (hi : i ≤ K) (h1i : 1 ≤ i) (hf : K < i + fuel) : K ∈ localMaxima x last fuel i := by
  induction fuel generalizing i with
  | zero => omega
  | succ f ih =>
    rw [localMaxima, if_pos (by omega)]
    by_cases hiK : i = K
    · subst hiK
      rw [if_pos (hmax (i - 1) (by omega) (by omega))]
      have ha : ahead x last (x i) last (i + 1) = i + 1 := by
        obtain ⟨l, rfl⟩ : ∃ l, last = l + 1 := ⟨last - 1, by omega⟩
        rw [ahead]
        split
        · rename_i h
          exact absurd h.2 (hmax (i + 1) (by omega) (by omega)).ne
        · rfl
      simp only [ha]
      rw [if_pos (hmax (i + 1) (by omega) (by omega))]
      have : (i + (i + 1 - 1)) / 2 = i := by omega
      rw [this]
      exact List.mem_cons_self
    · have hlt : i < K := by omega
      have hne : x K ≠ x i := (hmax i (by omega) hiK).ne'
      split
      · simp only
        have ha := ahead_ge x last (x i) last (i + 1)
        have ha' := ahead_le x last (x i) last (i + 1) K (by omega) hne
        split
        · rename_i h
          refine List.mem_cons_of_mem _ (ih _ ?_ (by omega) (by omega))
          have : ahead x last (x i) last (i + 1) ≠ K := by
            intro he
            rw [he] at h
            exact absurd h (not_lt.mpr (hmax i (by omega) hiK).le)
          omega
        · exact ih _ (by omega) (by omega) (by omega)
      · exact ih _ (by omega) (by omega) (by omega)

theorem thin_subset (dist : ℕ) (ps kept : List ℕ) : ∀ k ∈ thin dist ps kept, k ∈ ps ∨ k ∈ kept := by
  induction ps generalizing kept with
  | nil => intro k hk; exact .inr hk
  | cons p ps ih =>
    intro k hk
    rw [thin] at hk
    split at hk
    · rcases ih kept k hk with h | h
      · exact .inl (List.mem_cons_of_mem _ h)
      · exact .inr h
    · rcases ih _ k hk with h | h
      · exact .inl (List.mem_cons_of_mem _ h)
      · rcases List.mem_cons.mp h with rfl | h
        · exact .inl List.mem_cons_self
        · exact .inr h

theorem thin_single (dist K : ℕ) (ps : List ℕ) (h : ∀ p ∈ ps, p < K + dist ∧ K < p + dist) : thin dist ps [K] = [K] := by
  induction ps with
  | nil => rfl
  | cons p ps ih =>
    rw [thin, if_pos ⟨K, by simp, h p List.mem_cons_self⟩]
    exact ih fun q hq => h q (List.mem_cons_of_mem _ hq)

theorem thin_apart (dist : ℕ) (ps kept : List ℕ)
    (hk : ∀ a ∈ kept, ∀ b ∈ kept, a ≠ b → a + dist ≤ b ∨ b + dist ≤ a) :
    ∀ a ∈ thin dist ps kept, ∀ b ∈ thin dist ps kept, a ≠ b → a + dist ≤ b ∨ b + dist ≤ a := by
  induction ps generalizing kept with
  | nil => exact hk
  | cons p ps ih =>
    rw [thin]
    split
    · exact ih kept hk
    · rename_i h
      push Not at h
      apply ih
      intro a ha b hb hab
      rcases List.mem_cons.mp ha with ha | ha <;> rcases List.mem_cons.mp hb with hb | hb
      · exact absurd (ha.trans hb.symm) hab
      · have := h b hb; omega
      · have := h a ha; omega
      · exact hk a ha b hb hab

/-- A strict maximum of at least the height, all other values not closer than the distance being lower, is the only peak. -/
theorem findPeaks_single (x : ℕ → ℝ) (n dist K : ℕ) (sort : (ℕ → ℝ) → List ℕ → List ℕ) (hs : Sorts sort) (h1 : 1 ≤ K) (hK : K + 1 < n)
    (hd : 0 < dist) (hh : 9 / 10 ≤ x K) (hmax : ∀ k < n, k ≠ K → x k < x K)
    (hfar : ∀ k < n, k + dist ≤ K ∨ K + dist ≤ k → x k < 9 / 10) : findPeaks x n dist sort = [K] := by
  have hmem : K ∈ (localMaxima x (n - 1) n 1).filter fun k => decide (9 / 10 ≤ x k) := by
    rw [List.mem_filter]
    exact ⟨mem_localMaxima x (n - 1) K (by omega) h1 (fun k hk => hmax k (by omega)) n 1 h1 le_rfl (by omega), by simpa using hh⟩
  have hsorted : ((localMaxima x (n - 1) n 1).filter fun k => decide (9 / 10 ≤ x k)).Pairwise (· < ·) :=
    (localMaxima_sorted x (n - 1) n 1).filter _
  have hnear : ∀ k ∈ (localMaxima x (n - 1) n 1).filter fun k => decide (9 / 10 ≤ x k), k < n ∧ k < K + dist ∧ K < k + dist := by
    intro k hk
    obtain ⟨a, b⟩ := List.mem_filter.mp hk
    have hkn := (localMaxima_ge x (n - 1) n 1 k a).2
    have hb : 9 / 10 ≤ x k := by simpa using b
    refine ⟨by omega, ?_, ?_⟩
    · by_contra h
      exact absurd hb (not_le.mpr (hfar k (by omega) (.inr (by omega))))
    · by_contra h
      exact absurd hb (not_le.mpr (hfar k (by omega) (.inl (by omega))))
  unfold findPeaks
  simp only
  generalize (localMaxima x (n - 1) n 1).filter (fun k => decide (9 / 10 ≤ x k)) = peaks at hmem hsorted hnear
  obtain ⟨hperm, hdesc⟩ := hs x peaks
  have hkept : thin dist (sort x peaks) [] = [K] := by
    cases hp : sort x peaks with
    | nil => rw [hp] at hperm; rw [← hperm.mem_iff] at hmem; cases hmem
    | cons p ps =>
      rw [hp] at hperm hdesc
      have hpK : p = K := by
        by_contra hne
        have hKp : K ∈ ps := by
          have := hperm.mem_iff.mpr hmem
          rcases List.mem_cons.mp this with h | h
          · exact absurd h.symm hne
          · exact h
        have h2 := (List.pairwise_cons.mp hdesc).1 K hKp
        have h3 := hmax p (hnear p (hperm.mem_iff.mp List.mem_cons_self)).1 hne
        linarith
      subst hpK
      rw [thin, if_neg (by simp)]
      exact thin_single dist p ps fun q hq => (hnear q (hperm.mem_iff.mp (List.mem_cons_of_mem _ hq))).2
  rw [hkept]
  have : ∀ l : List ℕ, l.Pairwise (· < ·) → K ∈ l → l.filter (fun k => decide (k ∈ [K])) = [K] := by
    intro l
    induction l with
    | nil => intro _ h; cases h
    | cons a l ih =>
      intro hp hm
      obtain ⟨h4, h5⟩ := List.pairwise_cons.mp hp
      rcases List.mem_cons.mp hm with rfl | hm
      · rw [List.filter_cons_of_pos (by simp)]
        congr 1
        rw [List.filter_eq_nil_iff]
        intro b hb
        have := h4 b hb
        simp only [List.mem_singleton, decide_eq_true_eq]
        omega
      · have := h4 K hm
        rw [List.filter_cons_of_neg (by simp only [List.mem_singleton, decide_eq_true_eq]; omega)]
        exact ih h5 hm
  exact this peaks hsorted hmem

/-- The first of the largest values. -/
theorem argmax_first (f : ℕ → ℝ) (n j : ℕ) (hj : j < n) (h1 : ∀ k < j, f k < f j) (h2 : ∀ k < n, f k ≤ f j) : argmax f n = j := by
  induction n with
  | zero => omega
  | succ n ih =>
    rcases Nat.lt_succ_iff_lt_or_eq.mp hj with h | h
    · rw [argmax, ih h fun k hk => h2 k (by omega), if_neg (not_lt.mpr (h2 n (by omega)))]
    · subst h
      rw [argmax]
      by_cases h0 : j = 0
      · subst h0; simp [argmax]
      · rw [if_pos (h1 _ (argmax_lt f j (by omega)))]

/-! ### Synchronization -/

/-- C90: whatever is received, all indices lie within signals not shorter than a frame, and leave room for a whole one. -/
theorem C90_range (c : Config) (sort : (ℕ → ℝ) → List ℕ → List ℕ) (pilot : List ℂ) (L : ℕ) (streams : List (List ℂ)) (S : ℕ)
    (hS : L ≤ S) (r : List ℤ) (h : c.synchronize sort pilot L streams S = .ok r) : ∀ i ∈ r, 0 ≤ i ∧ i + L ≤ S := by
  unfold Config.synchronize at h
  split at h
  · cases h; simp
  split at h
  · cases h
  simp only at h
  split at h
  · cases h
  cases h
  intro i hi
  obtain ⟨k, -, rfl⟩ := List.mem_map.mp hi
  have habs : |(S : ℤ) - L| = S - L := abs_of_nonneg (by omega)
  simp only [habs]
  split_ifs <;> omega

/-- C90: frames are found in the order in which they start. -/
theorem C90_sorted (c : Config) (sort : (ℕ → ℝ) → List ℕ → List ℕ) (pilot : List ℂ) (L : ℕ) (streams : List (List ℂ)) (S : ℕ)
    (hS : L ≤ S) (r : List ℤ) (h : c.synchronize sort pilot L streams S = .ok r) : r.Pairwise (· ≤ ·) := by
  unfold Config.synchronize at h
  split at h
  · cases h; exact List.Pairwise.nil
  split at h
  · cases h
  simp only at h
  split at h
  · cases h
  cases h
  have habs : |(S : ℤ) - L| = S - L := abs_of_nonneg (by omega)
  rw [List.pairwise_map]
  split
  · exact List.Pairwise.nil
  · unfold findPeaks
    refine List.Pairwise.imp ?_ (((localMaxima_sorted _ _ _ _).filter _).filter _)
    intro a b hab
    simp only [habs]
    split_ifs <;> omega

/-- C90: frames found neither at the start nor at the end of a signal are 80 % of a frame apart.  Missing for the full claim: the
start and the end, see `C90_duplicate_fails`. -/
theorem C90_apart_partial (c : Config) (sort : (ℕ → ℝ) → List ℕ → List ℕ) (pilot : List ℂ) (L : ℕ) (streams : List (List ℂ)) (S : ℕ)
    (hS : L ≤ S) (r : List ℤ) (h : c.synchronize sort pilot L streams S = .ok r) (i j : ℤ) (hi : i ∈ r) (hj : j ∈ r) (hij : i < j)
    (h0 : 0 < i) (hend : j < (S : ℤ) - L) : i + (4 * L / 5 : ℕ) ≤ j := by
  unfold Config.synchronize at h
  split at h
  · cases h; cases hi
  split at h
  · cases h
  simp only at h
  split at h
  · cases h
  cases h
  have habs : |(S : ℤ) - L| = S - L := abs_of_nonneg (by omega)
  obtain ⟨a, ha, hai⟩ := List.mem_map.mp hi
  obtain ⟨b, hb, hbj⟩ := List.mem_map.mp hj
  simp only [habs] at hai hbj
  split at ha
  · cases ha
  rename_i hm
  rw [if_neg hm] at hb
  unfold findPeaks at ha hb
  have ha' := of_decide_eq_true (List.mem_filter.mp ha).2
  have hb' := of_decide_eq_true (List.mem_filter.mp hb).2
  have := thin_apart _ _ [] (by simp) a ha' b hb'
  have hne : a ≠ b := by
    rintro rfl
    rw [hai] at hbj
    omega
  have := this hne
  split_ifs at hai hbj <;> omega

/-- C90: silence contains no frames. -/
theorem C90_silence (c : Config) (sort : (ℕ → ℝ) → List ℕ → List ℕ) (pilot : List ℂ) (hp : pilot ≠ []) (L : ℕ) (hL : 2 ≤ L)
    (streams : List (List ℂ)) (S : ℕ) (h : ∀ x ∈ streams, ∀ z ∈ x, z = 0) : c.synchronize sort pilot L streams S = .ok [] := by
  have hc : ∀ k, profile streams pilot k = 0 := by
    intro k
    unfold profile
    apply List.sum_eq_zero
    intro y hy
    obtain ⟨x, hx, rfl⟩ := List.mem_map.mp hy
    have : correlate x pilot k = 0 := by
      unfold correlate
      apply Finset.sum_eq_zero
      intro n _
      have h0 : ∀ t, at' x t = 0 := by
        intro t
        unfold at'
        split
        · rw [List.getD_eq_getElem?_getD]
          cases hg : x[t.toNat]? with
          | none => rfl
          | some z => exact h x hx z (List.mem_of_getElem? hg)
        · rfl
      rw [h0, zero_mul]
    rw [this, norm_zero]
  unfold Config.synchronize
  split
  · rfl
  · simp only
    rw [if_neg (by omega)]
    simp only [hc, if_true, List.map_nil]

/-- Correlation of a frame which is received after `d` samples of silence with a gain. -/
theorem correlate_delayed (d e : ℕ) (g : ℂ) (frame p : List ℂ) (k : ℕ) :
    correlate (List.replicate d 0 ++ frame.map (g * ·) ++ List.replicate e 0) p k =
      g * ∑ n ∈ Finset.range p.length, at' frame ((k : ℤ) - d - (p.length - 1) + n) * (starRingEnd ℂ) (p.getD n 0) := by
  unfold correlate
  rw [Finset.mul_sum]
  apply Finset.sum_congr rfl
  intro n _
  rw [← mul_assoc]
  congr 1
  have key : ∀ t : ℤ, at' (List.replicate d 0 ++ frame.map (g * ·) ++ List.replicate e 0) t = g * at' frame (t - d) := by
    intro t
    unfold at'
    by_cases h0 : 0 ≤ t
    · rw [if_pos h0, List.getD_eq_getElem?_getD]
      by_cases h1 : 0 ≤ t - d
      · rw [if_pos h1, List.append_assoc, List.getElem?_append_right (by rw [List.length_replicate]; omega)]
        have hidx : t.toNat - (List.replicate d (0 : ℂ)).length = (t - d).toNat := by rw [List.length_replicate]; omega
        rw [hidx]
        by_cases h2 : (t - d).toNat < frame.length
        · rw [List.getElem?_append_left (by rw [List.length_map]; exact h2), List.getElem?_map, List.getD_eq_getElem?_getD,
            List.getElem?_eq_getElem h2]
          rfl
        · rw [List.getElem?_append_right (by simp; omega), List.getD_eq_getElem?_getD,
            List.getElem?_eq_none (l := frame) (by omega)]
          simp only [Option.getD_none, mul_zero]
          cases hr : (List.replicate e (0 : ℂ))[(t - d).toNat - (frame.map (g * ·)).length]? with
          | none => rfl
          | some z => simpa using (List.mem_replicate.mp (List.mem_of_getElem? hr)).2
      · rw [if_neg h1, List.append_assoc, List.getElem?_append_left (by simp; omega), mul_zero]
        cases hr : (List.replicate d (0 : ℂ))[t.toNat]? with
        | none => rfl
        | some z => simpa using (List.mem_replicate.mp (List.mem_of_getElem? hr)).2
    · rw [if_neg h0, if_neg (by omega), mul_zero]
  rw [key]
  congr 2
  ring

/-- Correlation of a frame with the pilot section at a lag. -/
noncomputable def lag (frame p : List ℂ) (t : ℤ) : ℂ :=
  ∑ n ∈ Finset.range p.length, at' frame (t + n) * (starRingEnd ℂ) (p.getD n 0)

/-- C90 for a frame starting with its pilot section, with samples of magnitude one, as those of chirp FSK waveforms, received
over any number of antennas with any gains after any silence: it is found exactly where it starts, and nowhere else.  The frame must
not repeat the pilot section, up to a phase, nor 90 % of it after 80 % of the frame.  Missing for the full claim: noise, several frames
(see `C90_duplicate_fails`), and signals shorter than a frame (see `C90_short_fails`). -/
theorem C90_exact_partial (c : Config) (sort : (ℕ → ℝ) → List ℕ → List ℕ) (hs : Sorts sort) (pilot rest : List ℂ)
    (hp : 2 ≤ pilot.length) (hunit : ∀ z ∈ pilot ++ rest, ‖z‖ = 1) (d e : ℕ) (gains : List ℂ) (hg : ∃ g ∈ gains, g ≠ 0)
    (hrep : ∀ t : ℕ, 0 < t → t < (pilot ++ rest).length → ‖lag (pilot ++ rest) pilot t‖ < pilot.length)
    (hfar : ∀ t : ℕ, 4 * (pilot ++ rest).length / 5 ≤ t → t < (pilot ++ rest).length →
      ‖lag (pilot ++ rest) pilot t‖ < 9 / 10 * pilot.length) :
    c.synchronize sort pilot (pilot ++ rest).length
      (gains.map fun g => List.replicate d 0 ++ (pilot ++ rest).map (g * ·) ++ List.replicate e 0) (d + (pilot ++ rest).length + e) =
        .ok [(d : ℤ)] := by
  set frame := pilot ++ rest with hframe
  set P := pilot.length with hP
  have hL : P ≤ frame.length := by rw [hframe, List.length_append]; omega
  set G := (gains.map fun g => ‖g‖).sum with hG
  have hG0 : 0 < G := by
    obtain ⟨g, hgm, hg0⟩ := hg
    have h1 : ‖g‖ ≤ G := List.single_le_sum (by intro x hx; obtain ⟨y, -, rfl⟩ := List.mem_map.mp hx; exact norm_nonneg y) _
      (List.mem_map.mpr ⟨g, hgm, rfl⟩)
    exact lt_of_lt_of_le (norm_pos_iff.mpr hg0) h1
  have hprof : ∀ k, profile (gains.map fun g => List.replicate d 0 ++ frame.map (g * ·) ++ List.replicate e 0) pilot k =
      G * ‖lag frame pilot ((k : ℤ) - d - (P - 1))‖ := by
    intro k
    unfold profile
    rw [List.map_map, hG]
    have : ∀ l : List ℂ, (l.map ((fun x => ‖correlate x pilot k‖) ∘ fun g => List.replicate d 0 ++ frame.map (g * ·) ++
        List.replicate e 0)).sum = (l.map fun g => ‖g‖).sum * ‖lag frame pilot ((k : ℤ) - d - (P - 1))‖ := by
      intro l
      induction l with
      | nil => simp
      | cons g l ih =>
        rw [List.map_cons, List.sum_cons, ih, List.map_cons, List.sum_cons, add_mul]
        congr 1
        simp only [Function.comp]
        rw [correlate_delayed, norm_mul]
        rfl
    exact this gains
  -- values of the correlation
  have hnorm : ∀ t, ‖at' frame t‖ ≤ 1 := by
    intro t
    unfold at'
    split
    · rw [List.getD_eq_getElem?_getD]
      cases hr : frame[t.toNat]? with
      | none => simp
      | some z => exact (hunit z (List.mem_of_getElem? hr)).le
    · simp
  have hpn : ∀ n, n < P → ‖(starRingEnd ℂ) (pilot.getD n 0)‖ = 1 := by
    intro n hn
    rw [RCLike.norm_conj, List.getD_eq_getElem?_getD, List.getElem?_eq_getElem hn, Option.getD_some]
    exact hunit _ (by rw [hframe]; exact List.mem_append_left _ (List.getElem_mem hn))
  have hlag0 : ‖lag frame pilot 0‖ = P := by
    have : lag frame pilot 0 = P := by
      unfold lag
      rw [Finset.sum_congr rfl (g := fun _ => (1 : ℂ))]
      · simp [hP]
      · intro n hn
        have hn' := Finset.mem_range.mp hn
        have h1 : at' frame (0 + n) = pilot.getD n 0 := by
          unfold at'
          rw [if_pos (by omega), hframe]
          simp only [zero_add, Int.toNat_natCast, List.getD_eq_getElem?_getD]
          rw [List.getElem?_append_left hn']
        rw [h1, Complex.mul_conj, Complex.normSq_eq_norm_sq, ← RCLike.norm_conj, hpn n hn']
        norm_num
    rw [this]
    simp
  -- before the frame, only part of the pilot overlaps
  have hneg : ∀ j : ℕ, ‖lag frame pilot (-(j : ℤ))‖ ≤ (P - j : ℕ) := by
    intro j
    unfold lag
    have h1 : ∀ n ∈ Finset.range P, n < j → at' frame (-(j : ℤ) + n) * (starRingEnd ℂ) (pilot.getD n 0) = 0 := by
      intro n _ hnj
      unfold at'
      rw [if_neg (by omega), zero_mul]
    rw [← hP, ← Finset.sum_filter_of_ne (p := fun n => j ≤ n)]
    · refine (norm_sum_le _ _).trans ?_
      refine (Finset.sum_le_card_nsmul _ _ 1 ?_).trans ?_
      · intro n hn
        obtain ⟨hn1, -⟩ := Finset.mem_filter.mp hn
        rw [norm_mul, hpn n (Finset.mem_range.mp hn1), mul_one]
        exact hnorm _
      · rw [nsmul_eq_mul, mul_one]
        have : ((Finset.range P).filter fun n => j ≤ n).card = P - j := by
          have : ((Finset.range P).filter fun n => j ≤ n) = Finset.Ico j P := by
            ext n; simp only [Finset.mem_filter, Finset.mem_range, Finset.mem_Ico]; omega
          rw [this, Nat.card_Ico]
        rw [this]
    · intro n hn hne
      by_contra h
      exact hne (h1 n hn (by omega))
  have hout : ∀ t : ℕ, frame.length ≤ t → lag frame pilot t = 0 := by
    intro t ht
    unfold lag
    apply Finset.sum_eq_zero
    intro n _
    unfold at'
    rw [if_pos (by omega), List.getD_eq_getElem?_getD, List.getElem?_eq_none (by omega)]
    simp
  set n := P + (d + frame.length + e) - 1 with hn
  set K := d + P - 1 with hKdef
  have hPpos : (0 : ℝ) < P := by
    have : 0 < P := by omega
    exact_mod_cast this
  have hPK : profile (gains.map fun g => List.replicate d 0 ++ frame.map (g * ·) ++ List.replicate e 0) pilot K = G * P := by
    rw [hprof, show ((K : ℤ) - d - (P - 1)) = 0 by omega, hlag0]
  have hless : ∀ k < n, k ≠ K →
      profile (gains.map fun g => List.replicate d 0 ++ frame.map (g * ·) ++ List.replicate e 0) pilot k < G * P := by
    intro k _ hk
    rw [hprof]
    apply mul_lt_mul_of_pos_left _ hG0
    rcases lt_or_gt_of_ne hk with h | h
    · have he : ((k : ℤ) - d - (P - 1)) = -((K - k : ℕ) : ℤ) := by omega
      rw [he]
      refine lt_of_le_of_lt (hneg _) ?_
      have : P - (K - k) < P := by omega
      exact_mod_cast this
    · have he : ((k : ℤ) - d - (P - 1)) = ((k - K : ℕ) : ℤ) := by omega
      rw [he]
      by_cases hl : k - K < frame.length
      · exact hrep (k - K) (by omega) hl
      · rw [hout _ (by omega), norm_zero]; exact hPpos
  have harg : argmax (profile (gains.map fun g => List.replicate d 0 ++ frame.map (g * ·) ++ List.replicate e 0) pilot) n = K := by
    apply argmax_spec _ _ _ (by omega)
    intro k hk hne
    rw [hPK]
    exact hless k hk hne
  have hgne : gains ≠ [] := by
    rintro rfl
    obtain ⟨g, hgm, -⟩ := hg
    cases hgm
  unfold Config.synchronize
  rw [if_neg (by
    rintro (h | h)
    · exact hgne (List.map_eq_nil_iff.mp h)
    · omega), if_neg (by rintro rfl; simp at hP; omega)]
  simp only
  rw [← hP, ← hn, harg, if_neg (by omega)]
  have hmne : G * P ≠ 0 := by positivity
  rw [hPK, if_neg hmne]
  have hpk : findPeaks (fun k => profile (gains.map fun g => List.replicate d 0 ++ frame.map (g * ·) ++ List.replicate e 0) pilot k / (G * P))
      n (4 * frame.length / 5) sort = [K] := by
    have hGP : 0 < G * P := by positivity
    apply findPeaks_single _ _ _ _ _ hs (by omega) (by omega) (by omega)
    · show 9 / 10 ≤ profile _ pilot K / (G * P)
      rw [hPK, div_self hmne]
      norm_num
    · intro k hk hne
      rw [hPK, div_self hmne, div_lt_one hGP]
      exact hless k hk hne
    · intro k hk hd
      rw [hprof, mul_div_mul_left _ _ hG0.ne', div_lt_iff₀ hPpos]
      rcases hd with h | h
      · have he : ((k : ℤ) - d - (P - 1)) = -((K - k : ℕ) : ℤ) := by omega
        rw [he]
        refine lt_of_le_of_lt (hneg _) ?_
        have h1 : 10 * (P - (K - k)) < 9 * P := by omega
        have h2 : (10 : ℝ) * (P - (K - k) : ℕ) < 9 * P := by exact_mod_cast h1
        linarith
      · have he : ((k : ℤ) - d - (P - 1)) = ((k - K : ℕ) : ℤ) := by omega
        rw [he]
        by_cases hl : k - K < frame.length
        · exact hfar (k - K) (by omega) hl
        · rw [hout _ (by omega), norm_zero]; positivity
  rw [hpk]
  simp only [List.map_cons, List.map_nil, Except.ok.injEq, List.cons.injEq, and_true]
  have h1 : ((K : ℕ) : ℤ) - ((P : ℤ) - 1) = d := by omega
  rw [h1, if_neg (by omega), if_neg (by omega)]

/-! ### What is false -/

/-- C90 fails for thresholds and guard ratios: they are checked and stored, but have no effect on any signal. -/
theorem C90_parameters_fails (c c' : Config) (sort : (ℕ → ℝ) → List ℕ → List ℕ) (pilot : List ℂ) (L : ℕ) (streams : List (List ℂ)) (S : ℕ) :
    c.synchronize sort pilot L streams S = c'.synchronize sort pilot L streams S := rfl

/-- C90 fails for signals shorter than a frame: whatever they contain, all pilots found are said to start at the number of missing
samples. -/
theorem C90_short_fails (c : Config) (sort : (ℕ → ℝ) → List ℕ → List ℕ) (pilot : List ℂ) (L : ℕ) (streams : List (List ℂ)) (S : ℕ)
    (hS : S < L) (r : List ℤ) (h : c.synchronize sort pilot L streams S = .ok r) : ∀ i ∈ r, i = (L - S : ℕ) := by
  unfold Config.synchronize at h
  split at h
  · cases h; simp
  split at h
  · cases h
  simp only at h
  split at h
  · cases h
  cases h
  intro i hi
  obtain ⟨k, -, rfl⟩ := List.mem_map.mp hi
  have habs : |(S : ℤ) - L| = (L - S : ℕ) := by
    rw [abs_of_nonpos (by omega)]; omega
  simp only [habs]
  split_ifs <;> omega

/-- Two impulses. -/
def twoPulses : List ℂ := [0, 1, 0, 0, 0, 0, 0, 0, 0, 1, 0]

/-- C90 fails for pilots close to the end: a frame of ten samples is found twice at the same place, the second time for a pilot
which is eight samples later. -/
theorem C90_duplicate_fails (c : Config) (sort : (ℕ → ℝ) → List ℕ → List ℕ) (hs : Sorts sort) :
    c.synchronize sort [1] 10 [twoPulses] 11 = .ok [1, 1] := by
  have hprof : ∀ k, profile [twoPulses] [1] k = if k = 1 ∨ k = 9 then 1 else 0 := by
    intro k
    have : at' twoPulses (k : ℤ) = if k = 1 ∨ k = 9 then 1 else 0 := by
      unfold at' twoPulses
      rw [if_pos (by omega), Int.toNat_natCast]
      by_cases hk : k < 11
      · interval_cases k <;> simp
      · rw [List.getD_eq_getElem?_getD, List.getElem?_eq_none (by simp; omega), if_neg (by omega)]
        rfl
    simp only [profile, correlate, List.map_cons, List.map_nil, List.sum_cons, List.sum_nil, add_zero, List.length_singleton,
      Finset.sum_range_one, Nat.cast_one, sub_self, sub_zero, Nat.cast_zero, this]
    split <;> simp
  have hfun : profile [twoPulses] [1] = fun k => if k = 1 ∨ k = 9 then 1 else 0 := funext hprof
  have harg : argmax (fun k => if k = 1 ∨ k = 9 then (1 : ℝ) else 0) 11 = 1 := by
    apply argmax_first _ _ _ (by norm_num)
    · intro k hk
      interval_cases k
      norm_num
    · intro k _
      split <;> norm_num
  have hahead : ∀ v i, i < 10 → (if i = 1 ∨ i = 9 then (1 : ℝ) else 0) ≠ v →
      ahead (fun k => if k = 1 ∨ k = 9 then (1 : ℝ) else 0) 10 v 10 i = i := by
    intro v i _ hv
    rw [ahead, if_neg (by rintro ⟨-, h⟩; exact hv h)]
  have hahead' : ∀ v, ahead (fun k => if k = 1 ∨ k = 9 then (1 : ℝ) else 0) 10 v 10 10 = 10 := by
    intro v
    rw [ahead, if_neg (by rintro ⟨h, -⟩; exact absurd h (by norm_num))]
  have hpeaks : (localMaxima (fun k => if k = 1 ∨ k = 9 then (1 : ℝ) else 0) 10 11 1) = [1, 9] := by
    have h2 : ahead (fun k => if k = 1 ∨ k = 9 then (1 : ℝ) else 0) 10 1 10 2 = 2 := hahead 1 2 (by norm_num) (by norm_num)
    have h10 := hahead' 1
    rw [localMaxima]
    norm_num [h2]
    iterate 6 rw [localMaxima]; norm_num
    rw [localMaxima]
    norm_num [h10]
    rw [localMaxima]
    norm_num
  have hfp : findPeaks (fun k => if k = 1 ∨ k = 9 then (1 : ℝ) else 0) 11 8 sort = [1, 9] := by
    unfold findPeaks
    simp only [Nat.reduceSub, hpeaks]
    have hf : ([1, 9] : List ℕ).filter (fun k => decide ((9 : ℝ) / 10 ≤ if k = 1 ∨ k = 9 then 1 else 0)) = [1, 9] := by
      norm_num [List.filter]
    rw [hf]
    have hperm := (hs (fun k => if k = 1 ∨ k = 9 then (1 : ℝ) else 0) [1, 9]).1
    have hthin : ∀ l : List ℕ, l.Perm [1, 9] → ∀ k ∈ ([1, 9] : List ℕ), k ∈ thin 8 l [] := by
      intro l hl
      have h2 : l = [1, 9] ∨ l = [9, 1] := by
        have hlen := hl.length_eq
        match l, hlen with
        | [a, b], _ =>
          have ha : a ∈ ([1, 9] : List ℕ) := hl.mem_iff.mp (by simp)
          have hb : b ∈ ([1, 9] : List ℕ) := hl.mem_iff.mp (by simp)
          have hnd : [a, b].Nodup := hl.nodup_iff.mpr (by decide)
          simp only [List.mem_cons, List.not_mem_nil, or_false] at ha hb
          have hab : a ≠ b := by simpa using hnd
          rcases ha with rfl | rfl <;> rcases hb with rfl | rfl <;> simp_all
      rcases h2 with rfl | rfl <;> decide
    rw [List.filter_eq_self]
    intro k hk
    exact decide_eq_true (hthin _ hperm k hk)
  unfold Config.synchronize
  rw [if_neg (by simp), if_neg (by simp)]
  simp only [List.length_singleton, Nat.reduceAdd, Nat.reduceSub, hfun, harg, Nat.reduceMul, Nat.reduceDiv]
  norm_num [hfp]

/-! ### Examples -/

/-- Orders exist which satisfy the contract. -/
example : ∃ sort, Sorts sort := by
  classical
  refine ⟨fun x l => l.mergeSort (fun a b => decide (x b ≤ x a)), fun x l => ⟨List.mergeSort_perm _ _, ?_⟩⟩
  have h := List.pairwise_mergeSort (le := fun a b : ℕ => decide (x b ≤ x a)) (by
    intro a b c h1 h2
    simp only [decide_eq_true_eq] at *
    exact h2.trans h1) (by
    intro a b
    simp only [Bool.or_eq_true, decide_eq_true_eq]
    exact le_total _ _) l
  exact h.imp fun h => by simpa using h

/-- A frame of two pilots and two data samples which does not repeat the pilots. -/
example : (∀ z ∈ ([1, 1] ++ [-1, 1] : List ℂ), ‖z‖ = 1) ∧
    (∀ t : ℕ, 0 < t → t < ([1, 1] ++ [-1, 1] : List ℂ).length → ‖lag ([1, 1] ++ [-1, 1]) [1, 1] t‖ < ([1, 1] : List ℂ).length) ∧
    ∀ t : ℕ, 4 * ([1, 1] ++ [-1, 1] : List ℂ).length / 5 ≤ t → t < ([1, 1] ++ [-1, 1] : List ℂ).length →
      ‖lag ([1, 1] ++ [-1, 1]) [1, 1] t‖ < 9 / 10 * ([1, 1] : List ℂ).length := by
  have h1 : lag ([1, 1] ++ [-1, 1]) [1, 1] 1 = 0 := by simp [lag, at', Finset.sum_range_succ]
  have h2 : lag ([1, 1] ++ [-1, 1]) [1, 1] 2 = 0 := by simp [lag, at', Finset.sum_range_succ]
  have h3 : lag ([1, 1] ++ [-1, 1]) [1, 1] 3 = 1 := by simp [lag, at', Finset.sum_range_succ]
  refine ⟨by simp, fun t h0 ht => ?_, fun t h0 ht => ?_⟩
  · simp only [List.cons_append, List.nil_append, List.length_cons, List.length_nil] at ht
    interval_cases t
    · rw [Nat.cast_one]; rw [h1]; norm_num
    · rw [Nat.cast_ofNat]; rw [h2]; norm_num
    · rw [Nat.cast_ofNat]; rw [h3]; norm_num
  · simp only [List.cons_append, List.nil_append, List.length_cons, List.length_nil] at ht h0
    interval_cases t
    rw [Nat.cast_ofNat, h3]; norm_num

/-- C90, configuration: synchronizations exist exactly for thresholds and guard ratios between zero and one, both included,
and hold what was given. -/
theorem C90_configuration (t g p : ℚ) :
    (0 ≤ t ∧ t ≤ 1 ∧ 0 ≤ g ∧ g ≤ 1 → ∃ c, Config.new t g p = .ok c ∧ c.threshold = t ∧ c.guardRatio = g ∧ c.prominence = p) ∧
    (¬ (0 ≤ t ∧ t ≤ 1 ∧ 0 ≤ g ∧ g ≤ 1) → Config.new t g p = .error .value) := by
  unfold Config.new
  constructor
  · rintro ⟨h1, h2, h3, h4⟩
    rw [if_neg (by rintro (h | h) <;> linarith), if_neg (by rintro (h | h) <;> linarith)]
    exact ⟨_, rfl, rfl, rfl, rfl⟩
  · intro h
    by_cases ht : t < 0 ∨ t > 1
    · rw [if_pos ht]
    · rw [if_neg ht]
      rw [not_or, not_lt, not_lt] at ht
      rw [if_pos]
      by_contra hg
      rw [not_or, not_lt, not_lt] at hg
      exact h ⟨ht.1, ht.2, hg.1, hg.2⟩

/-- The default configuration and the two ends of the ranges exist; a guard ratio of 3/2 does not. -/
example : (∃ c, Config.new (9/10) (8/10) (2/10) = .ok c) ∧ (∃ c, Config.new 0 1 0 = .ok c) ∧
    Config.new 1 (3/2) 0 = .error .value :=
  ⟨((C90_configuration _ _ _).1 (by norm_num)).imp fun _ h => h.1, ((C90_configuration _ _ _).1 (by norm_num)).imp fun _ h => h.1,
    (C90_configuration _ _ _).2 (by norm_num)⟩

end Verif.CorrSync
