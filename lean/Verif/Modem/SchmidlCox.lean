import Verif.Modem.CorrSync
import Verif.Modem.Ofdm

/-!
# C127: synchronization of OFDM frames by the algorithm of Schmidl and Cox

`SchmidlCoxPilotSection` and `SchmidlCoxSynchronization` of `hermespy/modem/waveforms/orthogonal/ofdm.py`; peaks are found
by the model of `scipy.signal.find_peaks` of C90.  `int(0.9 * num_samples)` is exact.
-/

namespace Verif.SchmidlCox

open Verif (PyErr)
open Verif.ChirpFsk (argmax argmax_lt argmax_spec)
open Verif.CorrSync (localMaxima localMaxima_ge localMaxima_sorted mem_localMaxima thin thin_subset thin_single thin_apart Sorts
  ahead ahead_le ahead_ge)
open Verif.Modem (padStart padded rollSource ofdmForwardRow)
open Verif.Dft (ifft)

/-! ### The pilot symbol -/

/-- Where entry `i` of the pilot sequence is taken from by `np.roll` on the lower half of the subcarriers,
`waveforms/orthogonal/ofdm.py` 200-202. -/
def pilotSource (N : ℕ) (dc : Bool) (i : ℕ) : ℕ :=
  if dc = true ∧ i < N / 2 then (if i = 0 then N / 2 - 1 else i - 1) else i

/-- `SchmidlCoxPilotSection._pilot_sequence`, `waveforms/orthogonal/ofdm.py` 190-204, for the elements `p` of the base
class: every second subcarrier is empty. -/
def pilotSequence (N : ℕ) (dc : Bool) (p : ℕ → ℂ) (i : ℕ) : ℂ :=
  if pilotSource N dc i % 2 = 0 then p (pilotSource N dc i / 2) else 0

/-- Samples of the pilot symbol. -/
noncomputable def symbol (N os : ℕ) (dc : Bool) (p : ℕ → ℂ) : ℕ → ℂ := ofdmForwardRow N os dc (pilotSequence N dc p)

/-! ### Synchronization -/

/-- The inner sum at `waveforms/orthogonal/ofdm.py` 244-248, of one stream. -/
noncomputable def correl (half : ℕ) (x : List ℂ) (d : ℕ) : ℂ :=
  ∑ k ∈ Finset.range half, (starRingEnd ℂ) (x.getD (d + k) 0) * x.getD (d + half + k) 0

/-- One value of `delay_powers`, `waveforms/orthogonal/ofdm.py` 239-250; a zero is prepended. -/
noncomputable def powers (half : ℕ) (streams : List (List ℂ)) (i : ℕ) : ℝ :=
  if i = 0 then 0 else (streams.map fun x => ‖correl half x (i - 1)‖).sum

/-- `find_peaks(x, distance=dist, height=h)` of `n` values. -/
noncomputable def findAbove (x : ℕ → ℝ) (n dist : ℕ) (h : ℝ) (sort : (ℕ → ℝ) → List ℕ → List ℕ) : List ℕ :=
  let peaks := (localMaxima x (n - 1) n 1).filter fun k => decide (h ≤ x k)
  let kept := thin dist (sort x peaks) []
  peaks.filter fun k => decide (k ∈ kept)

/-- `SchmidlCoxSynchronization.synchronize`, `waveforms/orthogonal/ofdm.py` 226-257, of streams of `S` samples, with `F` samples
per frame; scipy refuses distances below one. -/
noncomputable def synchronize (sort : (ℕ → ℝ) → List ℕ → List ℕ) (N os F : ℕ) (streams : List (List ℂ)) (S : ℕ) :
    Except PyErr (List ℕ) :=
  if S < os * N then .ok []
  else if 9 * F / 10 < 1 then .error .value
  else
    let x := powers (os * N / 2) streams
    let n := 2 + S - os * N
    .ok ((findAbove x n (9 * F / 10) (3 / 4 * x (argmax x n)) sort).map fun k => k - 1)

/-! ### Peaks -/

theorem filter_mem_single (K : ℕ) (l : List ℕ) (hp : l.Pairwise (· < ·)) (hm : K ∈ l) :
    l.filter (fun k => decide (k ∈ [K])) = [K] := by
  induction l with
  | nil => cases hm
  | cons a l ih =>
    obtain ⟨h4, h5⟩ := List.pairwise_cons.mp hp
    rcases List.mem_cons.mp hm with rfl | hm
    · rw [List.filter_cons_of_pos (by simp)]
      congr 1
      rw [List.filter_eq_nil_iff]
      intro b hb
      have := h4 b hb
      simp only [List.mem_singleton, decide_eq_true_eq]
      omega
    · have := h4 K hm
      rw [List.filter_cons_of_neg (by simp only [List.mem_singleton, decide_eq_true_eq]; omega)]
      exact ih h5 hm

/-- A strict maximum of at least the height, all values not closer than the distance being lower, is the only peak. -/
theorem findAbove_single (x : ℕ → ℝ) (n dist K : ℕ) (h : ℝ) (sort : (ℕ → ℝ) → List ℕ → List ℕ) (hs : Sorts sort) (h1 : 1 ≤ K)
    (hK : K + 1 < n) (hh : h ≤ x K) (hmax : ∀ k < n, k ≠ K → x k < x K)
    (hfar : ∀ k < n, k + dist ≤ K ∨ K + dist ≤ k → x k < h) : findAbove x n dist h sort = [K] := by
  have hmem : K ∈ (localMaxima x (n - 1) n 1).filter fun k => decide (h ≤ x k) := by
    rw [List.mem_filter]
    exact ⟨mem_localMaxima x (n - 1) K (by omega) h1 (fun k hk => hmax k (by omega)) n 1 h1 le_rfl (by omega), by simpa using hh⟩
  have hsorted : ((localMaxima x (n - 1) n 1).filter fun k => decide (h ≤ x k)).Pairwise (· < ·) :=
    (localMaxima_sorted x (n - 1) n 1).filter _
  have hnear : ∀ k ∈ (localMaxima x (n - 1) n 1).filter fun k => decide (h ≤ x k), k < n ∧ k < K + dist ∧ K < k + dist := by
    intro k hk
    obtain ⟨a, b⟩ := List.mem_filter.mp hk
    have hkn := (localMaxima_ge x (n - 1) n 1 k a).2
    have hb : h ≤ x k := by simpa using b
    refine ⟨by omega, ?_, ?_⟩
    · by_contra h
      exact absurd hb (not_le.mpr (hfar k (by omega) (.inr (by omega))))
    · by_contra h
      exact absurd hb (not_le.mpr (hfar k (by omega) (.inl (by omega))))
  unfold findAbove
  simp only
  generalize (localMaxima x (n - 1) n 1).filter (fun k => decide (h ≤ x k)) = peaks at hmem hsorted hnear
  obtain ⟨hperm, hdesc⟩ := hs x peaks
  have hkept : thin dist (sort x peaks) [] = [K] := by
    cases hp : sort x peaks with
    | nil => rw [hp] at hperm; rw [← hperm.mem_iff] at hmem; cases hmem
    | cons p ps =>
      rw [hp] at hperm hdesc
      have hpK : p = K := by
        by_contra hne
        have hKp : K ∈ ps := by
          have := hperm.mem_iff.mpr hmem
          rcases List.mem_cons.mp this with h | h
          · exact absurd h.symm hne
          · exact h
        have h2 := (List.pairwise_cons.mp hdesc).1 K hKp
        have h3 := hmax p (hnear p (hperm.mem_iff.mp List.mem_cons_self)).1 hne
        linarith
      subst hpK
      rw [thin, if_neg (by simp)]
      exact thin_single dist p ps fun q hq => (hnear q (hperm.mem_iff.mp (List.mem_cons_of_mem _ hq))).2
  rw [hkept]
  exact filter_mem_single K peaks hsorted hmem

theorem mem_findAbove (x : ℕ → ℝ) (n dist : ℕ) (h : ℝ) (sort : (ℕ → ℝ) → List ℕ → List ℕ) (k : ℕ)
    (hk : k ∈ findAbove x n dist h sort) : 1 ≤ k ∧ k < n - 1 ∧ h ≤ x k ∧ k ∈ thin dist (sort x
      ((localMaxima x (n - 1) n 1).filter fun k => decide (h ≤ x k))) [] := by
  unfold findAbove at hk
  simp only at hk
  obtain ⟨a, b⟩ := List.mem_filter.mp hk
  obtain ⟨c, d⟩ := List.mem_filter.mp a
  have := localMaxima_ge x (n - 1) n 1 k c
  exact ⟨this.1, this.2, by simpa using d, by simpa using b⟩

theorem findAbove_sorted (x : ℕ → ℝ) (n dist : ℕ) (h : ℝ) (sort : (ℕ → ℝ) → List ℕ → List ℕ) :
    (findAbove x n dist h sort).Pairwise (· < ·) :=
  ((localMaxima_sorted x (n - 1) n 1).filter _).filter _

/-- C127: indices are those of complete pilot symbols which at least one sample follows, in increasing order, and at least 90 %
of a frame apart. -/
theorem C127_range (sort : (ℕ → ℝ) → List ℕ → List ℕ) (N os F : ℕ) (streams : List (List ℂ)) (S : ℕ) (l : List ℕ)
    (h : synchronize sort N os F streams S = .ok l) :
    (∀ i ∈ l, i + os * N < S) ∧ l.Pairwise fun i j => i < j ∧ i + 9 * F / 10 ≤ j := by
  unfold synchronize at h
  by_cases h1 : S < os * N
  · rw [if_pos h1] at h; cases h; exact ⟨by simp, List.Pairwise.nil⟩
  rw [if_neg h1] at h
  by_cases h2 : 9 * F / 10 < 1
  · rw [if_pos h2] at h; cases h
  rw [if_neg h2] at h
  simp only [Except.ok.injEq] at h
  subst h
  constructor
  · intro i hi
    obtain ⟨k, hk, rfl⟩ := List.mem_map.mp hi
    obtain ⟨a, b, -, -⟩ := mem_findAbove _ _ _ _ _ _ hk
    omega
  · rw [List.pairwise_map]
    refine (findAbove_sorted _ _ _ _ _).imp_of_mem ?_
    intro a b ha hb hab
    obtain ⟨a1, -, -, a4⟩ := mem_findAbove _ _ _ _ _ _ ha
    obtain ⟨b1, -, -, b4⟩ := mem_findAbove _ _ _ _ _ _ hb
    have := thin_apart _ _ [] (by intro a ha; cases ha) a a4 b b4 (by omega)
    omega

/-- C127 is false of pilot symbols at the end of a signal: the last candidate is never found, whatever the samples; of a signal
of one symbol, nothing is. -/
theorem C127_end_fails (sort : (ℕ → ℝ) → List ℕ → List ℕ) (N os F : ℕ) (streams : List (List ℂ)) (S : ℕ) (l : List ℕ)
    (h : synchronize sort N os F streams S = .ok l) : S - os * N ∉ l ∧ (S = os * N → l = []) := by
  have hr := (C127_range sort N os F streams S l h).1
  constructor
  · intro hm
    have := hr _ hm
    omega
  · rintro rfl
    cases l with
    | nil => rfl
    | cons a l => have := hr a List.mem_cons_self; omega

theorem findAbove_zero (x : ℕ → ℝ) (hx : ∀ k, x k = 0) (n dist : ℕ) (h : ℝ) (sort : (ℕ → ℝ) → List ℕ → List ℕ) :
    findAbove x n dist h sort = [] := by
  have : ∀ last fuel i, localMaxima x last fuel i = [] := by
    intro last fuel
    induction fuel with
    | zero => intro i; rfl
    | succ f ih =>
      intro i
      rw [localMaxima]
      split
      · rw [if_neg (by rw [hx, hx]; simp)]; exact ih _
      · rfl
  unfold findAbove
  simp [this]

/-- C127: in silence, nothing is found. -/
theorem C127_silence (sort : (ℕ → ℝ) → List ℕ → List ℕ) (N os F : ℕ) (hF : 2 ≤ F) (streams : List (List ℂ))
    (hz : ∀ x ∈ streams, ∀ z ∈ x, z = 0) (S : ℕ) : synchronize sort N os F streams S = .ok [] := by
  have hx : ∀ k, powers (os * N / 2) streams k = 0 := by
    intro k
    unfold powers
    split
    · rfl
    · apply List.sum_eq_zero
      intro y hy
      obtain ⟨x, hxm, rfl⟩ := List.mem_map.mp hy
      rw [norm_eq_zero]
      unfold correl
      apply Finset.sum_eq_zero
      intro j _
      have : x.getD (k - 1 + os * N / 2 + j) 0 = 0 := by
        rw [List.getD_eq_getElem?_getD]
        cases hr : x[k - 1 + os * N / 2 + j]? with
        | none => rfl
        | some z => simpa using hz x hxm z (List.mem_of_getElem? hr)
      rw [this, mul_zero]
  unfold synchronize
  split
  · rfl
  · rw [if_neg (by omega)]
    simp only
    rw [findAbove_zero _ hx]
    rfl

/-- A stream with phase `ph` and carrier frequency offset `w`. -/
noncomputable def offset (ph w : ℝ) (x : List ℂ) : List ℂ :=
  x.mapIdx fun i z => Complex.exp (((ph + w * i : ℝ) : ℂ) * Complex.I) * z

theorem offset_getD (ph w : ℝ) (x : List ℂ) (i : ℕ) :
    (offset ph w x).getD i 0 = Complex.exp (((ph + w * i : ℝ) : ℂ) * Complex.I) * x.getD i 0 := by
  unfold offset
  rw [List.getD_eq_getElem?_getD, List.getD_eq_getElem?_getD, List.getElem?_mapIdx]
  cases x[i]? <;> simp

/-- C127: phases and offsets of carrier frequencies, of whatever amount and different in every stream, have no effect. -/
theorem C127_carrier_offset (sort : (ℕ → ℝ) → List ℕ → List ℕ) (N os F : ℕ) (streams : List (ℝ × ℝ × List ℂ)) (S : ℕ) :
    synchronize sort N os F (streams.map fun s => offset s.1 s.2.1 s.2.2) S =
      synchronize sort N os F (streams.map fun s => s.2.2) S := by
  have hc : ∀ (half : ℕ) (ph w : ℝ) (x : List ℂ) (d : ℕ), ‖correl half (offset ph w x) d‖ = ‖correl half x d‖ := by
    intro half ph w x d
    have : correl half (offset ph w x) d = Complex.exp (((w * half : ℝ) : ℂ) * Complex.I) * correl half x d := by
      unfold correl
      rw [Finset.mul_sum]
      apply Finset.sum_congr rfl
      intro k _
      rw [offset_getD, offset_getD, map_mul, ← Complex.exp_conj, map_mul, Complex.conj_I, Complex.conj_ofReal]
      have : Complex.exp (((ph + w * ((d + k : ℕ) : ℝ) : ℝ) : ℂ) * -Complex.I) *
          Complex.exp (((ph + w * ((d + half + k : ℕ) : ℝ) : ℝ) : ℂ) * Complex.I) = Complex.exp (((w * half : ℝ) : ℂ) * Complex.I) := by
        rw [← Complex.exp_add]
        congr 1
        push_cast
        ring
      rw [← this]
      ring
    rw [this, norm_mul, Complex.norm_exp_ofReal_mul_I, one_mul]
  have hp : powers (os * N / 2) (streams.map fun s => offset s.1 s.2.1 s.2.2) = powers (os * N / 2) (streams.map fun s => s.2.2) := by
    funext i
    unfold powers
    rw [List.map_map, List.map_map]
    split
    · rfl
    · congr 1
      apply List.map_congr_left
      intro s _
      exact hc _ _ _ _ _
  unfold synchronize
  rw [hp]

/-! ### One frame -/

theorem delayed_getD (d e : ℕ) (g : ℂ) (frame : List ℂ) (t : ℕ) :
    (List.replicate d 0 ++ frame.map (g * ·) ++ List.replicate e 0).getD t 0 = if t < d then 0 else g * frame.getD (t - d) 0 := by
  rw [List.getD_eq_getElem?_getD, List.append_assoc]
  split
  · rename_i h
    rw [List.getElem?_append_left (by simpa using h)]
    simp [h]
  · rename_i h
    rw [List.getElem?_append_right (by simpa using h), List.length_replicate, List.getD_eq_getElem?_getD]
    by_cases h2 : t - d < frame.length
    · rw [List.getElem?_append_left (by simpa using h2), List.getElem?_map, List.getElem?_eq_getElem h2]
      rfl
    · rw [List.getElem?_append_right (by simpa using h2), List.getElem?_eq_none (l := frame) (by omega)]
      simp only [Option.getD_none, mul_zero]
      cases hr : (List.replicate e (0 : ℂ))[t - d - (frame.map (g * ·)).length]? with
      | none => rfl
      | some z => simpa using (List.mem_replicate.mp (List.mem_of_getElem? hr)).2

/-- Energy of the first samples. -/
noncomputable def energy (frame : List ℂ) (r : ℕ) : ℝ := ∑ j ∈ Finset.range r, ‖frame.getD j 0‖ ^ 2

theorem conj_mul_self' (z : ℂ) : (starRingEnd ℂ) z * z = ((‖z‖ ^ 2 : ℝ) : ℂ) := by
  rw [mul_comm, Complex.mul_conj, Complex.normSq_eq_norm_sq]

/-- The sum after the start of a frame. -/
theorem correl_after (d e : ℕ) (g : ℂ) (frame : List ℂ) (half t : ℕ) :
    correl half (List.replicate d 0 ++ frame.map (g * ·) ++ List.replicate e 0) (d + t) = ((‖g‖ ^ 2 : ℝ) : ℂ) * correl half frame t := by
  unfold correl
  rw [Finset.mul_sum]
  apply Finset.sum_congr rfl
  intro k _
  rw [delayed_getD, delayed_getD, if_neg (by omega), if_neg (by omega), map_mul,
    show d + t + k - d = t + k by omega, show d + t + half + k - d = t + half + k by omega, ← conj_mul_self']
  ring

/-- The sum before the start of a frame with two equal halves. -/
theorem correl_before (d e : ℕ) (g c : ℂ) (frame : List ℂ) (half m : ℕ) (hm : m ≤ d)
    (hh : ∀ j < half, frame.getD (half + j) 0 = c * frame.getD j 0) :
    correl half (List.replicate d 0 ++ frame.map (g * ·) ++ List.replicate e 0) (d - m) =
      ((‖g‖ ^ 2 : ℝ) : ℂ) * (c * (energy frame (half - m) : ℝ)) := by
  unfold correl energy
  have hsplit : ∀ k ∈ Finset.range half, k ∉ Finset.Ico m half →
      (starRingEnd ℂ) ((List.replicate d 0 ++ frame.map (g * ·) ++ List.replicate e 0).getD (d - m + k) 0) *
        (List.replicate d 0 ++ frame.map (g * ·) ++ List.replicate e 0).getD (d - m + half + k) 0 = 0 := by
    intro k hk hk'
    rw [Finset.mem_range] at hk
    rw [Finset.mem_Ico] at hk'
    rw [delayed_getD, if_pos (by omega), map_zero, zero_mul]
  rw [← Finset.sum_subset (s₁ := Finset.Ico m half) (by intro k; simp only [Finset.mem_Ico, Finset.mem_range]; omega) hsplit,
    Finset.sum_Ico_eq_sum_range, Complex.ofReal_sum, Finset.mul_sum, Finset.mul_sum]
  apply Finset.sum_congr rfl
  intro k hk
  rw [Finset.mem_range] at hk
  rw [delayed_getD, delayed_getD, if_neg (by omega), if_neg (by omega), map_mul,
    show d - m + (m + k) - d = k by omega, show d - m + half + (m + k) - d = half + k by omega, hh k (by omega),
    ← conj_mul_self', ← conj_mul_self']
  ring

theorem energy_mono (frame : List ℂ) (a b : ℕ) (h : a ≤ b) : energy frame a ≤ energy frame b :=
  Finset.sum_le_sum_of_subset_of_nonneg (by intro k; simp only [Finset.mem_range]; omega) (fun _ _ _ => by positivity)

theorem energy_lt (frame : List ℂ) (a b : ℕ) (h : a ≤ b) (hb : frame.getD b 0 ≠ 0) : energy frame a < energy frame (b + 1) := by
  refine lt_of_le_of_lt (energy_mono frame a b h) ?_
  unfold energy
  rw [Finset.sum_range_succ]
  have : 0 < ‖frame.getD b 0‖ := norm_pos_iff.mpr hb
  have : 0 < ‖frame.getD b 0‖ ^ 2 := by positivity
  linarith

/-- C127 for a frame starting with a pilot symbol of two halves which are equal up to a phase, received over any number of
antennas with any gains after any silence: it is found exactly where it starts, and nowhere else.  The rest of the frame must not
correlate with itself as much as the pilot symbol, nor 75 % of that after 90 % of the frame.  Missing for the full claim: noise, and
several frames. -/
theorem C127_exact_partial (sort : (ℕ → ℝ) → List ℕ → List ℕ) (hs : Sorts sort) (N os half : ℕ) (hM : os * N = 2 * half) (hhalf : 0 < half)
    (frame : List ℂ) (hF : os * N ≤ frame.length) (c : ℂ) (hc : ‖c‖ = 1)
    (hh : ∀ j < half, frame.getD (half + j) 0 = c * frame.getD j 0) (hlast : frame.getD (half - 1) 0 ≠ 0) (d e : ℕ)
    (he : os * N < frame.length + e) (gains : List ℂ) (hg : ∃ g ∈ gains, g ≠ 0)
    (hrest : ∀ t : ℕ, 0 < t → t + os * N ≤ frame.length + e → ‖correl half frame t‖ < energy frame half)
    (hfar : ∀ t : ℕ, 9 * frame.length / 10 ≤ t → t + os * N ≤ frame.length + e → ‖correl half frame t‖ < 3 / 4 * energy frame half) :
    synchronize sort N os frame.length (gains.map fun g => List.replicate d 0 ++ frame.map (g * ·) ++ List.replicate e 0)
      (d + frame.length + e) = .ok [d] := by
  set G := (gains.map fun g => ‖g‖ ^ 2).sum with hG
  have hG0 : 0 < G := by
    obtain ⟨g, hgm, hg0⟩ := hg
    have h1 : ‖g‖ ^ 2 ≤ G := List.single_le_sum (by intro x hx; obtain ⟨y, -, rfl⟩ := List.mem_map.mp hx; positivity) _
      (List.mem_map.mpr ⟨g, hgm, rfl⟩)
    have h2 : 0 < ‖g‖ := norm_pos_iff.mpr hg0
    have h3 : 0 < ‖g‖ ^ 2 := by positivity
    linarith
  have hE0 : 0 < energy frame half := by
    have := energy_lt frame 0 (half - 1) (by omega) hlast
    rw [show half - 1 + 1 = half by omega] at this
    simpa [energy] using this
  have hsum : ∀ (f : ℂ → ℝ) (v : ℝ) (l : List ℂ), (∀ g, f g = ‖g‖ ^ 2 * v) → (l.map f).sum = (l.map fun g => ‖g‖ ^ 2).sum * v := by
    intro f v l hf
    induction l with
    | nil => simp
    | cons g l ih => rw [List.map_cons, List.sum_cons, ih, List.map_cons, List.sum_cons, hf, add_mul]
  set x := powers half (gains.map fun g => List.replicate d 0 ++ frame.map (g * ·) ++ List.replicate e 0) with hx
  have hafter : ∀ t, x (d + t + 1) = G * ‖correl half frame t‖ := by
    intro t
    rw [hx]
    unfold powers
    rw [if_neg (by omega), List.map_map]
    apply hsum
    intro g
    simp only [Function.comp]
    rw [show d + t + 1 - 1 = d + t by omega, correl_after, norm_mul, Complex.norm_real, Real.norm_of_nonneg (by positivity)]
  have hbefore : ∀ m, m ≤ d → x (d - m + 1) = G * energy frame (half - m) := by
    intro m hm
    rw [hx]
    unfold powers
    rw [if_neg (by omega), List.map_map]
    apply hsum
    intro g
    simp only [Function.comp]
    have h0 : 0 ≤ energy frame (half - m) := by unfold energy; positivity
    rw [show d - m + 1 - 1 = d - m by omega, correl_before d e g c frame half m hm hh, norm_mul, norm_mul, hc, one_mul,
      Complex.norm_real, Complex.norm_real, Real.norm_of_nonneg h0, Real.norm_of_nonneg (by positivity)]
  have hzero : x 0 = 0 := by rw [hx]; unfold powers; rw [if_pos rfl]
  have hpeak : x (d + 1) = G * energy frame half := by
    have := hbefore 0 (by omega)
    simpa using this
  have hless : ∀ k < 2 + (d + frame.length + e) - os * N, k ≠ d + 1 → x k < x (d + 1) := by
    intro k hk hne
    rw [hpeak]
    by_cases h0 : k = 0
    · subst h0; rw [hzero]; positivity
    · by_cases h1 : k < d + 1
      · have := hbefore (d + 1 - k) (by omega)
        rw [show d - (d + 1 - k) + 1 = k by omega] at this
        rw [this]
        apply mul_lt_mul_of_pos_left _ hG0
        have := energy_lt frame (half - (d + 1 - k)) (half - 1) (by omega) hlast
        rwa [show half - 1 + 1 = half by omega] at this
      · have := hafter (k - (d + 1))
        rw [show d + (k - (d + 1)) + 1 = k by omega] at this
        rw [this]
        exact mul_lt_mul_of_pos_left (hrest _ (by omega) (by omega)) hG0
  have hn : d + 1 < 2 + (d + frame.length + e) - os * N := by omega
  unfold synchronize
  rw [if_neg (by omega), if_neg (by omega)]
  simp only
  rw [show os * N / 2 = half by omega, ← hx, argmax_spec x _ (d + 1) hn hless]
  have hfind : findAbove x (2 + (d + frame.length + e) - os * N) (9 * frame.length / 10) (3 / 4 * x (d + 1)) sort = [d + 1] := by
    apply findAbove_single _ _ _ _ _ _ hs (by omega) (by omega) _ hless
    · intro k hk hd
      rw [hpeak]
      have hP : 0 < 3 / 4 * (G * energy frame half) := by positivity
      by_cases h0 : k = 0
      · subst h0; rw [hzero]; exact hP
      · rcases hd with h | h
        · have := hbefore (d + 1 - k) (by omega)
          rw [show d - (d + 1 - k) + 1 = k by omega, show half - (d + 1 - k) = 0 by omega] at this
          rw [this]
          simpa [energy] using hP
        · have := hafter (k - (d + 1))
          rw [show d + (k - (d + 1)) + 1 = k by omega] at this
          rw [this, show 3 / 4 * (G * energy frame half) = G * (3 / 4 * energy frame half) by ring]
          exact mul_lt_mul_of_pos_left (hfar _ (by omega) (by omega)) hG0
    · rw [hpeak]
      have : 0 < G * energy frame half := by positivity
      linarith
  rw [hfind]
  simp

/-- The sum inside of a pilot symbol which nothing follows. -/
theorem correl_alone (frame : List ℂ) (half : ℕ) (hF : frame.length = 2 * half) (c : ℂ) (hc : ‖c‖ = 1)
    (hh : ∀ j < half, frame.getD (half + j) 0 = c * frame.getD j 0) (t : ℕ) :
    ‖correl half frame t‖ = ∑ k ∈ Finset.Ico t half, ‖frame.getD k 0‖ ^ 2 := by
  have : correl half frame t = c * ((∑ k ∈ Finset.Ico t half, ‖frame.getD k 0‖ ^ 2 : ℝ) : ℂ) := by
    unfold correl
    rw [Finset.sum_Ico_eq_sum_range, Complex.ofReal_sum, Finset.mul_sum]
    have hsub : Finset.range (half - t) ⊆ Finset.range half := by intro k; simp only [Finset.mem_range]; omega
    rw [← Finset.sum_subset hsub]
    · apply Finset.sum_congr rfl
      intro k hk
      rw [Finset.mem_range] at hk
      rw [show t + half + k = half + (t + k) by omega, hh (t + k) (by omega), ← conj_mul_self']
      ring
    · intro k hk hk'
      rw [Finset.mem_range] at hk hk'
      have : frame.getD (t + half + k) 0 = 0 := by
        rw [List.getD_eq_getElem?_getD, List.getElem?_eq_none (by omega)]; rfl
      rw [this, mul_zero]
  rw [this, norm_mul, hc, one_mul, Complex.norm_real, Real.norm_of_nonneg]
  positivity

/-- C127 for a pilot symbol alone: the hypotheses on the rest of the frame are met. -/
theorem C127_alone_partial (sort : (ℕ → ℝ) → List ℕ → List ℕ) (hs : Sorts sort) (N os half : ℕ) (hM : os * N = 2 * half) (hhalf : 0 < half)
    (frame : List ℂ) (hF : frame.length = os * N) (c : ℂ) (hc : ‖c‖ = 1)
    (hh : ∀ j < half, frame.getD (half + j) 0 = c * frame.getD j 0) (hfirst : frame.getD 0 0 ≠ 0) (hlast : frame.getD (half - 1) 0 ≠ 0)
    (d e : ℕ) (he : 0 < e) (gains : List ℂ) (hg : ∃ g ∈ gains, g ≠ 0) :
    synchronize sort N os frame.length (gains.map fun g => List.replicate d 0 ++ frame.map (g * ·) ++ List.replicate e 0)
      (d + frame.length + e) = .ok [d] := by
  have hE0 : 0 < energy frame half := by
    have := energy_lt frame 0 (half - 1) (by omega) hlast
    rw [show half - 1 + 1 = half by omega] at this
    simpa [energy] using this
  apply C127_exact_partial sort hs N os half hM hhalf frame hF.ge c hc hh hlast d e (by omega) gains hg
  · intro t ht _
    rw [correl_alone frame half (by omega) c hc hh t]
    unfold energy
    rw [Finset.range_eq_Ico]
    apply Finset.sum_lt_sum_of_subset (i := 0) (by intro k; simp only [Finset.mem_Ico]; omega) (by simpa using hhalf)
      (by simp only [Finset.mem_Ico]; omega)
    · have : 0 < ‖frame.getD 0 0‖ := norm_pos_iff.mpr hfirst
      positivity
    · intro j _ _
      positivity
  · intro t ht _
    rw [correl_alone frame half (by omega) c hc hh t, Finset.Ico_eq_empty (by omega), Finset.sum_empty]
    positivity

/-! ### The pilot symbol has two equal halves -/

/-- Subcarriers of one parity only. -/
theorem symbol_halves (N os half : ℕ) (dc : Bool) (p : ℕ → ℂ) (hM : N * os = 2 * half) (r : ℕ)
    (hpar : ∀ i < N * os, padded N os (pilotSequence N dc p) (rollSource dc (N * os) ((i + N * os / 2) % (N * os))) ≠ 0 → i % 2 = r % 2)
    (n : ℕ) : symbol N os dc p (half + n) = (-1) ^ r * symbol N os dc p n := by
  unfold symbol ofdmForwardRow ifft
  rw [mul_left_comm]
  congr 1
  rw [Finset.mul_sum]
  apply Finset.sum_congr rfl
  intro i hi
  rw [Finset.mem_range] at hi
  dsimp only
  by_cases hz : padded N os (pilotSequence N dc p) (rollSource dc (N * os) ((i + N * os / 2) % (N * os))) = 0
  · rw [hz]; simp
  · have hp := hpar i hi hz
    have hM0 : ((N * os : ℕ) : ℂ) ≠ 0 := by
      have : N * os ≠ 0 := by omega
      exact_mod_cast this
    have he : Complex.exp (2 * Real.pi * Complex.I * ((half + n : ℕ) : ℂ) * i / ((N * os : ℕ) : ℂ)) =
        (-1) ^ r * Complex.exp (2 * Real.pi * Complex.I * n * i / ((N * os : ℕ) : ℂ)) := by
      have h1 : (2 * Real.pi * Complex.I * ((half + n : ℕ) : ℂ) * i / ((N * os : ℕ) : ℂ)) =
          (i : ℂ) * (Real.pi * Complex.I) + 2 * Real.pi * Complex.I * n * i / ((N * os : ℕ) : ℂ) := by
        have hh0 : (half : ℂ) ≠ 0 := by
          have : half ≠ 0 := by omega
          exact_mod_cast this
        rw [hM]
        push_cast
        field_simp
      rw [h1, Complex.exp_add, Complex.exp_nat_mul, Complex.exp_pi_mul_I]
      congr 1
      rw [neg_one_pow_eq_pow_mod_two, hp, ← neg_one_pow_eq_pow_mod_two]
    rw [he]
    ring

/-- C127: without suppression of the carrier, or with numbers of subcarriers divisible by four, the second half of the pilot symbol
repeats the first one, up to sign. -/
theorem C127_halves (N os half : ℕ) (dc : Bool) (p : ℕ → ℂ) (hos : 0 < os) (hM : N * os = 2 * half) (hd : dc = true → N % 4 = 0) :
    ∃ c : ℂ, (c = 1 ∨ c = -1) ∧ ∀ n, symbol N os dc p (half + n) = c * symbol N os dc p n := by
  have hcomm : os * N = N * os := Nat.mul_comm _ _
  have hge : N ≤ N * os := Nat.le_mul_of_pos_right _ hos
  refine ⟨(-1) ^ (padStart N os + half + if dc = true then 1 else 0), neg_one_pow_eq_or ℂ _, fun n => ?_⟩
  apply symbol_halves N os half dc p hM
  intro i hi hne
  have hq : (i + N * os / 2) % (N * os) = if i + half < N * os then i + half else i + half - N * os := by
    rw [show N * os / 2 = half by omega]
    split
    · exact Nat.mod_eq_of_lt (by assumption)
    · rw [Nat.mod_eq_sub_mod (by omega), Nat.mod_eq_of_lt (by omega)]
  rw [hq] at hne
  set q := if i + half < N * os then i + half else i + half - N * os with hqdef
  have hqi : q % 2 = (i + half) % 2 ∧ q < N * os := by rw [hqdef]; split <;> omega
  have hst : padStart N os = half - N / 2 := by unfold padStart; omega
  unfold padded at hne
  by_cases hin : padStart N os ≤ rollSource dc (N * os) q ∧ rollSource dc (N * os) q < N + padStart N os
  · rw [if_pos hin] at hne
    have hps : pilotSequence N dc p (rollSource dc (N * os) q - padStart N os) ≠ 0 := by
      intro h0; rw [h0] at hne; simp at hne
    unfold pilotSequence at hps
    by_cases heven : pilotSource N dc (rollSource dc (N * os) q - padStart N os) % 2 = 0
    · unfold pilotSource rollSource at heven
      unfold rollSource at hin
      cases dc with
      | false =>
        simp only [Bool.false_eq_true, false_and, if_false] at heven hin ⊢
        omega
      | true =>
        have h4 := hd rfl
        have hcase : N = N * os ∨ 2 * N ≤ N * os := by
          rcases Nat.lt_or_ge os 2 with h | h
          · left; rw [show os = 1 by omega, Nat.mul_one]
          · right; calc 2 * N = N * 2 := Nat.mul_comm _ _
              _ ≤ N * os := Nat.mul_le_mul_left _ h
        simp only [true_and, if_true] at heven hin ⊢
        split_ifs at heven hin <;> omega
    · rw [if_neg heven] at hps; exact absurd rfl hps
  · rw [if_neg hin] at hne; exact absurd rfl hne

/-- C127 for the pilot symbol of an OFDM waveform, with and without oversampling. -/
theorem C127_ofdm_partial (sort : (ℕ → ℝ) → List ℕ → List ℕ) (hs : Sorts sort) (N os half : ℕ) (dc : Bool) (p : ℕ → ℂ)
    (hM : N * os = 2 * half) (hhalf : 0 < half) (hd : dc = true → N % 4 = 0) (hfirst : symbol N os dc p 0 ≠ 0)
    (hlast : symbol N os dc p (half - 1) ≠ 0) (d e : ℕ) (he : 0 < e) (gains : List ℂ) (hg : ∃ g ∈ gains, g ≠ 0) :
    synchronize sort N os (N * os) (gains.map fun g => List.replicate d 0 ++
      (Verif.Modem.ofFn (N * os) (symbol N os dc p)).map (g * ·) ++ List.replicate e 0) (d + N * os + e) = .ok [d] := by
  have hos : 0 < os := by
    rcases Nat.eq_zero_or_pos os with h | h
    · rw [h] at hM; omega
    · exact h
  have hl : (Verif.Modem.ofFn (N * os) (symbol N os dc p)).length = N * os := Verif.Modem.ofFn_length _ _
  have hget : ∀ i < N * os, (Verif.Modem.ofFn (N * os) (symbol N os dc p)).getD i 0 = symbol N os dc p i := by
    intro i hi
    rw [List.getD_eq_getElem?_getD]
    exact Verif.Modem.toFn_ofFn (N * os) (symbol N os dc p) i hi
  obtain ⟨c, hc, hcs⟩ := C127_halves N os half dc p hos hM hd
  have hcn : ‖c‖ = 1 := by rcases hc with rfl | rfl <;> simp
  have := C127_alone_partial sort hs N os half (by rw [Nat.mul_comm]; exact hM) hhalf (Verif.Modem.ofFn (N * os) (symbol N os dc p))
    (by rw [hl, Nat.mul_comm]) c hcn (fun j hj => by rw [hget _ (by omega), hget _ (by omega)]; exact hcs j)
    (by rw [hget _ (by omega)]; exact hfirst) (by rw [hget _ (by omega)]; exact hlast) d e he gains hg
  rw [hl] at this
  exact this

/-! ### What is false -/

theorem ahead_eq (x : ℕ → ℝ) (last B : ℕ) (v : ℝ) (hB : B ≤ last) (hne : x B ≠ v) (fuel : ℕ) :
    ∀ i, i ≤ B → B - i ≤ fuel → (∀ k, i ≤ k → k < B → x k = v) → ahead x last v fuel i = B := by
  induction fuel with
  | zero => intro i h1 h2 _; rw [ahead]; omega
  | succ f ih =>
    intro i h1 h2 h3
    rw [ahead]
    by_cases hi : i = B
    · subst hi
      rw [if_neg (by rintro ⟨-, h⟩; exact hne h)]
    · rw [if_pos ⟨by omega, h3 i le_rfl (by omega)⟩]
      exact ih (i + 1) (by omega) (by omega) (fun k a b => h3 k (by omega) b)

/-- A plateau is found in its middle. -/
theorem localMaxima_plateau (x : ℕ → ℝ) (last a b : ℕ) (v : ℝ) (hv : 0 < v) (ha : 1 ≤ a) (hab : a ≤ b) (hb : b < last)
    (hin : ∀ k, a ≤ k → k ≤ b → x k = v) (hlow : ∀ k < a, x k = 0) (hhigh : ∀ k, b < k → k ≤ last → x k = 0) (fuel : ℕ) :
    ∀ i, 1 ≤ i → i ≤ a → a < i + fuel → localMaxima x last fuel i = [(a + b) / 2] := by
  have hrest : ∀ fuel i, b + 2 ≤ i → localMaxima x last fuel i = [] := by
    intro fuel
    induction fuel with
    | zero => intro i _; rfl
    | succ f ih =>
      intro i hi
      rw [localMaxima]
      split
      · rename_i hl
        rw [hhigh i (by omega) (by omega), hhigh (i - 1) (by omega) (by omega), if_neg (lt_irrefl _)]
        exact ih (i + 1) (by omega)
      · rfl
  induction fuel with
  | zero => intro i _ h1 h2; omega
  | succ f ih =>
    intro i hi h1 h2
    rw [localMaxima, if_pos (by omega)]
    by_cases hia : i = a
    · subst hia
      rw [hin i le_rfl hab, hlow (i - 1) (by omega), if_pos hv]
      have he := ahead_eq x last (b + 1) v (by omega) (by rw [hhigh (b + 1) (by omega) (by omega)]; exact hv.ne) last (i + 1)
        (by omega) (by omega) (fun k h3 h4 => hin k (by omega) (by omega))
      simp only
      rw [he, hhigh (b + 1) (by omega) (by omega), if_pos hv, hrest f (b + 1 + 1) (by omega), Nat.add_sub_cancel]
    · rw [hlow i (by omega), hlow (i - 1) (by omega), if_neg (lt_irrefl _)]
      exact ih (i + 1) (by omega) (by omega) (by omega)

theorem sum_range_double (f : ℕ → ℂ) (L : ℕ) : ∑ i ∈ Finset.range (2 * L), f i = ∑ l ∈ Finset.range L, (f (2 * l) + f (2 * l + 1)) := by
  induction L with
  | zero => simp
  | succ L ih => rw [show 2 * (L + 1) = 2 * L + 1 + 1 by ring, Finset.sum_range_succ, Finset.sum_range_succ, ih, Finset.sum_range_succ]; ring

/-- Equal elements on all pilot subcarriers are an impulse in each half. -/
theorem symbol_uniform (L : ℕ) (hL : 0 < L) (z : ℂ) (n : ℕ) (hn : n < L) :
    symbol (2 * L) 1 false (fun _ => z) n = if n = 0 then z / ((Real.sqrt (2 * L : ℕ) : ℝ) : ℂ) * L else 0 := by
  set w : ℂ := z / ((Real.sqrt (2 * L : ℕ) : ℝ) : ℂ) with hw
  have hval : ∀ i < 2 * L, padded (2 * L) 1 (pilotSequence (2 * L) false fun _ => z)
      (rollSource false (2 * L * 1) ((i + 2 * L * 1 / 2) % (2 * L * 1))) = if (i + L) % 2 = 0 then w else 0 := by
    intro i hi
    have hq : (i + 2 * L * 1 / 2) % (2 * L * 1) = if i + L < 2 * L then i + L else i + L - 2 * L := by
      rw [show 2 * L * 1 / 2 = L by omega, show 2 * L * 1 = 2 * L by omega]
      split
      · exact Nat.mod_eq_of_lt (by assumption)
      · rw [Nat.mod_eq_sub_mod (by omega), Nat.mod_eq_of_lt (by omega)]
    rw [hq]
    unfold padded rollSource pilotSequence pilotSource padStart
    simp only [Bool.false_eq_true, false_and, if_false]
    rw [if_pos (by split <;> omega)]
    have hpar : ((if i + L < 2 * L then i + L else i + L - 2 * L) - (1 * (2 * L) / 2 - 2 * L / 2)) % 2 = (i + L) % 2 := by
      split <;> omega
    rw [hpar]
    by_cases h0 : (i + L) % 2 = 0
    · rw [if_pos h0, if_pos h0]
    · rw [if_neg h0, if_neg h0, zero_div]
  have hs : symbol (2 * L) 1 false (fun _ => z) n =
      ∑ i ∈ Finset.range (2 * L), (if (i + L) % 2 = 0 then w else 0) * Complex.exp (2 * Real.pi * Complex.I * n * i / ((2 * L : ℕ) : ℂ)) := by
    unfold symbol ofdmForwardRow ifft
    simp only [Verif.Dft.Norm.bwd, one_mul, Nat.mul_one]
    apply Finset.sum_congr rfl
    intro i hi
    have := hval i (Finset.mem_range.mp hi)
    simp only [Nat.mul_one] at this
    rw [this]
  rw [hs, sum_range_double]
  have hL0 : (L : ℂ) ≠ 0 := by exact_mod_cast hL.ne'
  have horth := Verif.Dft.exp_orthogonal L hL n 0 hn hL
  simp only [Nat.cast_zero, mul_zero, zero_div, neg_zero, Complex.exp_zero, mul_one] at horth
  have hterm : ∀ l ∈ Finset.range L, (if (2 * l + L) % 2 = 0 then w else 0) * Complex.exp (2 * Real.pi * Complex.I * n * ((2 * l : ℕ) : ℂ) / ((2 * L : ℕ) : ℂ)) +
      (if (2 * l + 1 + L) % 2 = 0 then w else 0) * Complex.exp (2 * Real.pi * Complex.I * n * ((2 * l + 1 : ℕ) : ℂ) / ((2 * L : ℕ) : ℂ)) =
        (w * (if L % 2 = 0 then 1 else Complex.exp (Real.pi * Complex.I * n / L))) * Complex.exp (2 * Real.pi * Complex.I * l * n / L) := by
    intro l _
    by_cases hp : L % 2 = 0
    · rw [if_pos (by omega), if_neg (by omega), if_pos hp, zero_mul, add_zero, mul_one]
      congr 2
      push_cast
      field_simp
    · rw [if_neg (by omega), if_pos (by omega), if_neg hp, zero_mul, zero_add, mul_assoc w, ← Complex.exp_add]
      congr 2
      push_cast
      field_simp
      ring
  rw [Finset.sum_congr rfl hterm, ← Finset.mul_sum, horth]
  by_cases h0 : n = 0
  · subst h0
    rw [if_pos rfl, if_pos rfl]
    by_cases hp : L % 2 = 0
    · rw [if_pos hp, mul_one]
    · rw [if_neg hp]; simp
  · rw [if_neg h0, if_neg h0, mul_zero]

/-- C127 is false of pilot elements that are all the same, e.g. one element configured as the pilot: the sum is the same for half a
symbol before the frame, and the frame is found a quarter of a symbol too early, without any noise.  This holds for every even number of
subcarriers above two. -/
theorem C127_uniform_fails (sort : (ℕ → ℝ) → List ℕ → List ℕ) (hs : Sorts sort) (L : ℕ) (hL : 2 ≤ L) (z : ℂ) (hz : z ≠ 0)
    (d e : ℕ) (hd : L ≤ d) (he : 0 < e) :
    synchronize sort (2 * L) 1 (2 * L) [List.replicate d 0 ++ (Verif.Modem.ofFn (2 * L) (symbol (2 * L) 1 false fun _ => z)).map ((1 : ℂ) * ·) ++
      List.replicate e 0] (d + 2 * L + e) = .ok [d - L / 2] := by
  set frame := Verif.Modem.ofFn (2 * L) (symbol (2 * L) 1 false fun _ => z) with hframe
  have hl : frame.length = 2 * L := Verif.Modem.ofFn_length _ _
  have hget : ∀ i < 2 * L, frame.getD i 0 = symbol (2 * L) 1 false (fun _ => z) i := by
    intro i hi
    rw [List.getD_eq_getElem?_getD]
    exact Verif.Modem.toFn_ofFn (2 * L) (symbol (2 * L) 1 false fun _ => z) i hi
  obtain ⟨c, hc, hcs⟩ := C127_halves (2 * L) 1 L false (fun _ => z) one_pos (by omega) (by simp)
  have hcn : ‖c‖ = 1 := by rcases hc with rfl | rfl <;> simp
  have hh : ∀ j < L, frame.getD (L + j) 0 = c * frame.getD j 0 := fun j hj => by
    rw [hget _ (by omega), hget _ (by omega)]; exact hcs j
  have hA : frame.getD 0 0 ≠ 0 := by
    rw [hget _ (by omega), symbol_uniform L (by omega) z 0 (by omega), if_pos rfl]
    have h1 : ((Real.sqrt (2 * L : ℕ) : ℝ) : ℂ) ≠ 0 := by
      have : 0 < Real.sqrt (2 * L : ℕ) := Real.sqrt_pos.mpr (by exact_mod_cast (by omega : 0 < 2 * L))
      exact_mod_cast this.ne'
    have h2 : (L : ℂ) ≠ 0 := by exact_mod_cast (by omega : L ≠ 0)
    exact mul_ne_zero (div_ne_zero hz h1) h2
  have hzero : ∀ j, 0 < j → j < L → ‖frame.getD j 0‖ ^ 2 = 0 := by
    intro j h1 h2
    rw [hget _ (by omega), symbol_uniform L (by omega) z j h2, if_neg (by omega)]
    simp
  set v := ‖frame.getD 0 0‖ ^ 2 with hv
  have hv0 : 0 < v := by
    have : 0 < ‖frame.getD 0 0‖ := norm_pos_iff.mpr hA
    positivity
  have henergy : ∀ r, r ≤ L → energy frame r = if r = 0 then 0 else v := by
    intro r hr
    unfold energy
    cases r with
    | zero => simp
    | succ r =>
      rw [Finset.sum_range_succ', Finset.sum_eq_zero, zero_add, if_neg (by omega)]
      intro j hj
      rw [Finset.mem_range] at hj
      exact hzero _ (by omega) (by omega)
  set x := powers L [List.replicate d 0 ++ frame.map ((1 : ℂ) * ·) ++ List.replicate e 0] with hx
  have hx0 : x 0 = 0 := by rw [hx]; unfold powers; rw [if_pos rfl]
  have hxb : ∀ m, m ≤ d → x (d - m + 1) = if L ≤ m then 0 else v := by
    intro m hm
    rw [hx]
    unfold powers
    rw [if_neg (by omega)]
    simp only [List.map_cons, List.map_nil, List.sum_cons, List.sum_nil, add_zero]
    have h0 : 0 ≤ energy frame (L - m) := by unfold energy; positivity
    rw [show d - m + 1 - 1 = d - m by omega, correl_before d e 1 c frame L m hm hh, norm_mul, norm_mul, hcn, Complex.norm_real,
      Complex.norm_real, Real.norm_of_nonneg h0, henergy _ (by omega)]
    by_cases hLm : L ≤ m
    · rw [if_pos (by omega), if_pos hLm]; simp
    · rw [if_neg (by omega), if_neg hLm]; simp
  have hxa : ∀ t, 0 < t → x (d + t + 1) = 0 := by
    intro t ht
    rw [hx]
    unfold powers
    rw [if_neg (by omega)]
    simp only [List.map_cons, List.map_nil, List.sum_cons, List.sum_nil, add_zero]
    rw [show d + t + 1 - 1 = d + t by omega, correl_after, norm_mul, correl_alone frame L hl c hcn hh t, Finset.sum_eq_zero, mul_zero]
    intro j hj
    rw [Finset.mem_Ico] at hj
    exact hzero j (by omega) hj.2
  have hin : ∀ k, d - L + 2 ≤ k → k ≤ d + 1 → x k = v := by
    intro k h1 h2
    have := hxb (d + 1 - k) (by omega)
    rw [show d - (d + 1 - k) + 1 = k by omega, if_neg (by omega)] at this
    exact this
  have hlow : ∀ k < d - L + 2, x k = 0 := by
    intro k hk
    by_cases h0 : k = 0
    · rw [h0]; exact hx0
    · have := hxb (d + 1 - k) (by omega)
      rw [show d - (d + 1 - k) + 1 = k by omega, if_pos (by omega)] at this
      exact this
  have hhigh : ∀ k, d + 1 < k → x k = 0 := by
    intro k hk
    have := hxa (k - (d + 1)) (by omega)
    rwa [show d + (k - (d + 1)) + 1 = k by omega] at this
  set n := 2 + (d + 2 * L + e) - 1 * (2 * L) with hn
  have hle : ∀ k, x k ≤ v := by
    intro k
    by_cases h1 : k < d - L + 2
    · rw [hlow k h1]; exact hv0.le
    · by_cases h2 : k ≤ d + 1
      · exact (hin k (by omega) h2).le
      · rw [hhigh k (by omega)]; exact hv0.le
  have hmax : 3 / 4 * x (argmax x n) ≤ v := by linarith [hle (argmax x n)]
  have hlm : localMaxima x (n - 1) n 1 = [(d - L + 2 + (d + 1)) / 2] :=
    localMaxima_plateau x (n - 1) (d - L + 2) (d + 1) v hv0 (by omega) (by omega) (by omega) hin hlow (fun k h _ => hhigh k h) n 1
      le_rfl (by omega) (by omega)
  unfold synchronize
  rw [if_neg (by omega), if_neg (by omega)]
  simp only
  rw [show 1 * (2 * L) / 2 = L by omega, ← hx, ← hn]
  unfold findAbove
  rw [hlm]
  simp only
  have hk : x ((d - L + 2 + (d + 1)) / 2) = v := hin _ (by omega) (by omega)
  rw [List.filter_cons_of_pos (by rw [hk]; simpa using hmax), List.filter_nil]
  have hsort : sort x [(d - L + 2 + (d + 1)) / 2] = [(d - L + 2 + (d + 1)) / 2] := List.perm_singleton.mp (hs x _).1
  rw [hsort, thin, if_neg (by simp), thin, List.filter_cons_of_pos (by simp), List.filter_nil]
  simp only [List.map_cons, List.map_nil, Except.ok.injEq, List.cons.injEq, and_true]
  omega

/-- C127 is false of suppressed carriers: with numbers of subcarriers not divisible by four, the halves of the pilot symbol are not
multiples of each other. -/
theorem C127_dc_fails : ¬ ∃ c : ℂ, ∀ n < 3, symbol 6 1 true (fun _ => 1) (3 + n) = c * symbol 6 1 true (fun _ => 1) n := by
  rintro ⟨c, hc⟩
  set w : ℂ := 1 / ((Real.sqrt (6 : ℕ) : ℝ) : ℂ) with hw
  have hw0 : w ≠ 0 := by
    have : 0 < Real.sqrt (6 : ℕ) := Real.sqrt_pos.mpr (by norm_num)
    rw [hw]
    exact div_ne_zero one_ne_zero (by exact_mod_cast this.ne')
  have hs : ∀ n : ℕ, symbol 6 1 true (fun _ => 1) n = w * (Complex.exp (2 * Real.pi * Complex.I * n * 2 / 6) +
      Complex.exp (2 * Real.pi * Complex.I * n * 3 / 6) + Complex.exp (2 * Real.pi * Complex.I * n * 4 / 6)) := by
    intro n
    unfold symbol ofdmForwardRow ifft
    simp [Finset.sum_range_succ, Verif.Dft.Norm.bwd, padded, padStart, rollSource, pilotSequence, pilotSource, hw]
    ring
  set ζ : ℂ := Complex.exp (2 * Real.pi * Complex.I / (3 : ℕ)) with hζ
  have hprim : IsPrimitiveRoot ζ 3 := Complex.isPrimitiveRoot_exp 3 (by norm_num)
  have h3 : ζ ^ 3 = 1 := hprim.pow_eq_one
  have hsum : ζ ^ 2 + ζ + 1 = 0 := by
    have := hprim.geom_sum_eq_zero (by norm_num)
    simp only [Finset.sum_range_succ, Finset.sum_range_zero, pow_zero, pow_one, zero_add] at this
    linear_combination this
  have e2 : ∀ n : ℕ, Complex.exp (2 * Real.pi * Complex.I * n * 2 / 6) = ζ ^ n := by
    intro n
    rw [hζ, ← Complex.exp_nat_mul]
    congr 1
    push_cast
    ring
  have e3 : ∀ n : ℕ, Complex.exp (2 * Real.pi * Complex.I * n * 3 / 6) = (-1) ^ n := by
    intro n
    rw [← Complex.exp_pi_mul_I, ← Complex.exp_nat_mul]
    congr 1
    ring
  have e4 : ∀ n : ℕ, Complex.exp (2 * Real.pi * Complex.I * n * 4 / 6) = ζ ^ (2 * n) := by
    intro n
    rw [hζ, ← Complex.exp_nat_mul]
    congr 1
    push_cast
    ring
  have h0 := hc 0 (by norm_num)
  have h1 := hc 1 (by norm_num)
  rw [hs, hs, e2, e3, e4, e2, e3, e4] at h0 h1
  have a0 : (3 : ℂ) * c = 1 := by
    have : w * (3 * c - 1) = 0 := by
      have h6 : ζ ^ 6 = 1 := by rw [show 6 = 3 * 2 by norm_num, pow_mul, h3, one_pow]
      norm_num [h3, h6] at h0
      linear_combination -h0
    rcases mul_eq_zero.mp this with h | h
    · exact absurd h hw0
    · linear_combination h
  have a1 : c = 0 := by
    have : w * c = 0 := by
      have h4 : ζ ^ 4 = ζ := by rw [show 4 = 3 + 1 by norm_num, pow_succ, h3, one_mul]
      have h8 : ζ ^ 8 = ζ ^ 2 := by rw [show 8 = 3 * 2 + 2 by norm_num, pow_add, pow_mul, h3, one_pow, one_mul]
      norm_num [h4, h8] at h1
      have h5 : ζ ^ 2 = -ζ - 1 := by linear_combination hsum
      rw [h5] at h1
      ring_nf at h1
      linear_combination (1 / 2) * h1
    rcases mul_eq_zero.mp this with h | h
    · exact absurd h hw0
    · exact h
  rw [a1] at a0
  norm_num at a0

/-! ### Non-vacuity -/

/-- Pilots of four subcarriers with elements `1` and `I`. -/
example : symbol 4 1 false (fun k => if k = 0 then 1 else Complex.I) 0 ≠ 0 ∧
    symbol 4 1 false (fun k => if k = 0 then 1 else Complex.I) 1 ≠ 0 := by
  have h2 : ((Real.sqrt (4 : ℕ) : ℝ) : ℂ) = 2 := by
    have : Real.sqrt (4 : ℕ) = 2 := by
      rw [show ((4 : ℕ) : ℝ) = 2 ^ 2 by norm_num]; exact Real.sqrt_sq (by norm_num)
    rw [this]; norm_num
  have hs : ∀ n : ℕ, symbol 4 1 false (fun k => if k = 0 then 1 else Complex.I) n =
      Complex.I / 2 + Complex.exp (n * (Real.pi * Complex.I)) / 2 := by
    intro n
    have he : Complex.exp (2 * Real.pi * Complex.I * n * 2 / 4) = Complex.exp (n * (Real.pi * Complex.I)) := by
      congr 1; ring
    rw [← he]
    have h2' : ((Real.sqrt 4 : ℝ) : ℂ) = 2 := by simpa using h2
    unfold symbol ofdmForwardRow ifft
    simp [Finset.sum_range_succ, Verif.Dft.Norm.bwd, padded, padStart, rollSource, pilotSequence, pilotSource, h2']
    ring
  rw [hs, hs, Complex.exp_nat_mul, Complex.exp_nat_mul, Complex.exp_pi_mul_I]
  constructor
  · intro h
    have := congrArg Complex.im h
    norm_num at this
  · intro h
    have := congrArg Complex.im h
    norm_num at this

end Verif.SchmidlCox
