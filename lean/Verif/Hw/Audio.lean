import Verif.Dft
import Verif.Hw.Physical
import Mathlib.Data.Rat.Floor

/-!
# Audio devices (C114)

Model of `AudioDevice` (`hermespy/hardware_loop/audio/device.py` 45-393): the mixing of complex baseband signals to real sound
pressures, the playback and recording by a sound card, which is an arbitrary function, and the conversion back to complex
samples.  Samples are exact.  Not modelled: triggering before the first upload, and the module `sounddevice` beyond its
assignment of columns to channels.
-/

namespace Verif.HwAudio

open Verif.Dft (Norm)
open Verif.HwDevice (Sig)

/-- `scipy.fft.fft` of one row. -/
noncomputable def fft (x : List ℂ) : List ℂ :=
  (List.range x.length).map fun (k : ℕ) => Dft.fft .backward x.length (fun (j : ℕ) => x.getD j 0) k

/-- `scipy.fft.ifft` of one row. -/
noncomputable def ifft (x : List ℂ) : List ℂ :=
  (List.range x.length).map fun (k : ℕ) => Dft.ifft .backward x.length (fun (j : ℕ) => x.getD j 0) k

/-- `np.roll` of one row by `s` entries. -/
def roll (x : List ℂ) (s : ℤ) : List ℂ :=
  (List.range x.length).map fun (k : ℕ) => x.getD (((k : ℤ) - s) % (x.length : ℤ)).toNat 0

/-- `x[int(0.5 * n):] = 0.0`, `audio/device.py` 305 and 354. -/
def lowerHalf (x : List ℂ) : List ℂ :=
  (List.range x.length).map fun (k : ℕ) => if x.length / 2 ≤ k then 0 else x.getD k 0

/-- `reshape((p, -1))`. -/
def reshape {α : Type} (p : ℕ) (x : List (List α)) : Except PyErr (List (List α)) :=
  if p = 0 then .error .value
  else if x.flatten.length % p ≠ 0 then .error .value
  else .ok ((List.range p).map fun (i : ℕ) => (x.flatten.drop (i * (x.flatten.length / p))).take (x.flatten.length / p))

/-- The spectrum of one stream moved to positive frequencies, `audio/device.py` 300-304. -/
noncomputable def mixed (x : List ℂ) : List ℂ := roll (fft x) ((x.length / 4 : ℕ) + 1)

/-- The sound pressure of one stream, `audio/device.py` 305-313. -/
noncomputable def pressure (delay : ℕ) (p : List ℂ) : List ℝ :=
  (ifft (lowerHalf p)).map Complex.re ++ List.replicate delay 0

/-- The complex samples of one recorded channel, `audio/device.py` 350-356. -/
noncomputable def analytic (x : List ℝ) : List ℂ :=
  ifft ((roll (lowerHalf (fft (x.map fun (a : ℝ) => (a : ℂ)))) (-((x.length / 4 : ℕ) : ℤ) - 1)).map (2 * ·))

/-- The parameters of a device, `audio/device.py` 120-168, and the maximum receive delay of `PhysicalDevice`. -/
structure Dev where
  playbackDevice : ℤ
  recordDevice : ℤ
  playback : List ℕ
  record : List ℕ
  fs : ℚ
  oversampling : ℤ
  maxDelay : ℚ
  deriving DecidableEq

/-- `AudioDevice.__init__`, `audio/device.py` 156-168, with the checks of the setters (202-288) and of `max_receive_delay`
(`physical_device.py` 350-355). -/
def new (pd rd : ℤ) (pc rc : Option (List ℕ)) (fs : ℚ) (os : ℤ) (maxDelay : ℚ) : Except PyErr Dev :=
  if maxDelay < 0 then .error .value
  else if pd < 0 then .error .value
  else if rd < 0 then .error .value
  else if fs ≤ 0 then .error .value
  else if os < 1 then .error .value
  else .ok ⟨pd, rd, pc.getD [1], rc.getD [1], fs, os, maxDelay⟩

/-- `carrier_frequency`, `audio/device.py` 260-262. -/
def Dev.carrier (d : Dev) : ℚ := 1 / 2 * d.fs

/-- `num_transmit_rf_ports` (`core/device.py` 1247-1250) with `num_transmit_antennas`, `audio/device.py` 83-86. -/
def Dev.tx (d : Dev) : ℕ := d.record.length

/-- `num_receive_rf_ports` (`core/device.py` 1253-1256) with `num_receive_antennas`, `audio/device.py` 78-81. -/
def Dev.rx (d : Dev) : ℕ := d.playback.length

/-- `delay_samples`, `audio/device.py` 297. -/
def Dev.delay (d : Dev) : ℕ := ⌊d.maxDelay * d.fs⌋.toNat

/-- `AudioDevice._upload`, `audio/device.py` 294-323: the transmission, by columns, and the returned signal. -/
noncomputable def upload (d : Dev) (x : Sig) : Except PyErr (List (List ℝ) × Sig) :=
  match reshape d.tx (x.streams.map mixed) with
  | .error e => .error e
  | .ok p =>
    match reshape d.rx (p.map (pressure d.delay)) with
    | .error e => .error e
    | .ok u => .ok (p.map (pressure d.delay), ⟨x.rate, 0, u.map fun l => l.map fun (a : ℝ) => (a : ℂ)⟩)

/-- What is played at channel `c`, `audio/device.py` 331-337: column `j` of the transmission is played at the `j`-th playback
channel. -/
def played (playback : List ℕ) (t : List (List ℝ)) (c : ℕ) : Option (List ℝ) :=
  ((playback.zip t).find? fun q => q.1 = c).map Prod.snd

/-- `AudioDevice.trigger`, `audio/device.py` 325-339, with a sound card that records `card f c` at channel `c` when `f` is
played; `sounddevice.playrec` raises a `ValueError` if the number of columns is not the number of channels. -/
def trigger (card : (ℕ → Option (List ℝ)) → ℕ → List ℝ) (d : Dev) (t : List (List ℝ)) : Except PyErr (List (List ℝ)) :=
  if t.length ≠ d.playback.length then .error .value else .ok (d.record.map (card (played d.playback t)))

/-- `AudioDevice._download`, `audio/device.py` 341-359. -/
noncomputable def download (d : Dev) (r : List (List ℝ)) : Sig := ⟨d.fs, 0, r.map analytic⟩

/-- Transmitting a signal and receiving the recording. -/
noncomputable def transceive (card : (ℕ → Option (List ℝ)) → ℕ → List ℝ) (d : Dev) (x : Sig) : Except PyErr Sig :=
  match upload d x with
  | .error e => .error e
  | .ok u => (trigger card d u.1).map (download d)

/-- `AudioDevice.serialize` followed by `Deserialize`, `audio/device.py` 374-393: arguments of `PhysicalDevice` are not stored,
the maximum receive delay is zero by default (`physical_device.py` 79-90). -/
def restore (d : Dev) : Except PyErr Dev :=
  new d.playbackDevice d.recordDevice (some d.playback) (some d.record) d.fs d.oversampling 0

/-- A sound card whose channels are connected: each channel records what it plays. -/
def cable (n : ℕ) : (ℕ → Option (List ℝ)) → ℕ → List ℝ := fun f c => (f c).getD (List.replicate n 0)

/-! ### Lemmas on spectra -/

theorem fft_congr (n : ℕ) (x y : ℕ → ℂ) (k : ℕ) (h : ∀ j < n, x j = y j) :
    Dft.fft .backward n x k = Dft.fft .backward n y k := by
  unfold Dft.fft
  congr 1
  apply Finset.sum_congr rfl
  intro j hj
  rw [h j (Finset.mem_range.mp hj)]

theorem getD_map_range (n k : ℕ) (f : ℕ → ℂ) (h : k < n) : ((List.range n).map f).getD k 0 = f k := by
  simp [List.getD, h]

theorem conj_exp (n k j : ℕ) (hn : 0 < n) (hk : k ≤ n) :
    (starRingEnd ℂ) (Complex.exp (-(2 * Real.pi * Complex.I * ((n - k : ℕ) : ℂ) * j / n))) =
      Complex.exp (-(2 * Real.pi * Complex.I * k * j / n)) := by
  rw [← Complex.exp_conj]
  have hn0 : (n : ℂ) ≠ 0 := by exact_mod_cast hn.ne'
  have e : (starRingEnd ℂ) (-(2 * Real.pi * Complex.I * ((n - k : ℕ) : ℂ) * j / n)) =
      -(2 * Real.pi * Complex.I * k * j / n) + (j : ℤ) * (2 * Real.pi * Complex.I) := by
    simp only [map_neg, map_div₀, map_mul, Complex.conj_I, Complex.conj_ofReal, Complex.conj_natCast, map_ofNat]
    rw [Nat.cast_sub hk]
    push_cast
    field_simp
    ring
  rw [e, Complex.exp_add, Complex.exp_int_mul_two_pi_mul_I, mul_one]

/-- The spectrum of a real part. -/
theorem fft_re (n k : ℕ) (hn : 0 < n) (hk : k ≤ n) (z : ℕ → ℂ) :
    Dft.fft .backward n (fun t => ((z t).re : ℂ)) k =
      (Dft.fft .backward n z k + (starRingEnd ℂ) (Dft.fft .backward n z (n - k))) / 2 := by
  unfold Dft.fft
  simp only [Norm.fwd, one_mul]
  rw [map_sum, ← Finset.sum_add_distrib, Finset.sum_div]
  apply Finset.sum_congr rfl
  intro j _
  rw [map_mul, conj_exp n k j hn hk, Complex.re_eq_add_conj]
  ring

theorem fft_period (n : ℕ) (hn : 0 < n) (z : ℕ → ℂ) : Dft.fft .backward n z n = Dft.fft .backward n z 0 := by
  unfold Dft.fft
  congr 1
  apply Finset.sum_congr rfl
  intro j _
  have hn0 : (n : ℂ) ≠ 0 := by exact_mod_cast hn.ne'
  have e : -(2 * Real.pi * Complex.I * (n : ℂ) * j / n) = ((-(j : ℤ) : ℤ) : ℂ) * (2 * Real.pi * Complex.I) := by
    push_cast
    field_simp
  rw [e, Complex.exp_int_mul_two_pi_mul_I]
  simp

@[simp] theorem length_fft (x : List ℂ) : (fft x).length = x.length := by simp [fft]
@[simp] theorem length_ifft (x : List ℂ) : (ifft x).length = x.length := by simp [ifft]
@[simp] theorem length_roll (x : List ℂ) (s : ℤ) : (roll x s).length = x.length := by simp [roll]
@[simp] theorem length_lowerHalf (x : List ℂ) : (lowerHalf x).length = x.length := by simp [lowerHalf]
@[simp] theorem length_mixed (x : List ℂ) : (mixed x).length = x.length := by simp [mixed]

theorem fft_getD (x : List ℂ) (k : ℕ) (h : k < x.length) :
    (fft x).getD k 0 = Dft.fft .backward x.length (fun (j : ℕ) => x.getD j 0) k := getD_map_range _ _ _ h

theorem ifft_getD (x : List ℂ) (k : ℕ) (h : k < x.length) :
    (ifft x).getD k 0 = Dft.ifft .backward x.length (fun (j : ℕ) => x.getD j 0) k := getD_map_range _ _ _ h

theorem fft_ifft (x : List ℂ) : fft (ifft x) = x := by
  apply List.ext_getElem
  · simp
  · intro k h1 h2
    have hk : k < x.length := h2
    have e1 : (fft (ifft x))[k] = (fft (ifft x)).getD k 0 := by rw [List.getD, List.getElem?_eq_getElem h1]; rfl
    have e2 : x[k] = x.getD k 0 := by simp [List.getD, h2]
    rw [e1, e2, fft_getD _ _ (by simpa using hk), length_ifft]
    rw [fft_congr _ _ (Dft.ifft .backward x.length fun j => x.getD j 0) _ fun j hj => ifft_getD x j hj]
    exact Dft.fft_ifft _ _ _ _ hk

theorem ifft_fft (x : List ℂ) : ifft (fft x) = x := by
  apply List.ext_getElem
  · simp
  · intro k h1 h2
    have hk : k < x.length := h2
    have e1 : (ifft (fft x))[k] = (ifft (fft x)).getD k 0 := by rw [List.getD, List.getElem?_eq_getElem h1]; rfl
    have e2 : x[k] = x.getD k 0 := by simp [List.getD, h2]
    rw [e1, e2, ifft_getD _ _ (by simpa using hk), length_fft]
    rw [Dft.ifft_congr _ _ _ (Dft.fft .backward x.length fun j => x.getD j 0) _ fun j hj => fft_getD x j hj]
    exact Dft.ifft_fft _ _ _ _ hk

theorem roll_getD (x : List ℂ) (s : ℤ) (k : ℕ) (h : k < x.length) :
    (roll x s).getD k 0 = x.getD (((k : ℤ) - s) % (x.length : ℤ)).toNat 0 := getD_map_range _ _ _ h

theorem lowerHalf_getD (x : List ℂ) (k : ℕ) (h : k < x.length) :
    (lowerHalf x).getD k 0 = if x.length / 2 ≤ k then 0 else x.getD k 0 :=
  getD_map_range _ _ (fun (k : ℕ) => if x.length / 2 ≤ k then 0 else x.getD k 0) h

theorem index_up (n j q : ℕ) (hj : j < n) : ((((j + q + 1) % n : ℕ) : ℤ) - ((q : ℕ) + 1)) % (n : ℤ) = (j : ℤ) := by
  push_cast
  rw [Int.emod_sub_emod]
  rw [show (j : ℤ) + (q : ℤ) + 1 - ((q : ℤ) + 1) = j by ring]
  exact Int.emod_eq_of_lt (by omega) (by omega)

theorem index_down (n j q : ℕ) : ((j : ℤ) - (-((q : ℕ) : ℤ) - 1)) % (n : ℤ) = (((j + q + 1) % n : ℕ) : ℤ) := by
  push_cast
  congr 1
  ring

theorem getD_double (l : List ℂ) (j : ℕ) : (l.map (2 * ·)).getD j 0 = 2 * l.getD j 0 := by
  simp only [List.getD, List.getElem?_map]
  cases l[j]? <;> simp

/-- The spectrum received back by a device with a connected channel. -/
theorem loop_spectrum (x : List ℂ) (j : ℕ) (hj : j < x.length) :
    (fft (analytic (pressure 0 (mixed x)))).getD j 0 =
      if x.length / 2 ≤ (j + x.length / 4 + 1) % x.length then 0
      else if (j + x.length / 4 + 1) % x.length = 0 then 2 * (((fft x).getD j 0).re : ℂ)
      else (fft x).getD j 0 := by
  set n := x.length with hn
  have hn0 : 0 < n := by omega
  set k := (j + n / 4 + 1) % n with hk
  have hkn : k < n := Nat.mod_lt _ hn0
  set p := lowerHalf (mixed x) with hp
  have hpl : p.length = n := by simp [hp, hn]
  have hpr : (pressure 0 (mixed x)).length = n := by simp [pressure, hn]
  -- spectrum of the pressure
  have e1 : ∀ i, i < n → (fft ((pressure 0 (mixed x)).map fun (a : ℝ) => (a : ℂ))).getD i 0 =
      (p.getD i 0 + (starRingEnd ℂ) (p.getD (if i = 0 then 0 else n - i) 0)) / 2 := by
    intro i hi
    have hl : ((pressure 0 (mixed x)).map fun (a : ℝ) => (a : ℂ)).length = n := by simp [hpr]
    rw [fft_getD _ _ (by rw [hl]; exact hi), hl]
    have hc : ∀ t < n, ((pressure 0 (mixed x)).map fun (a : ℝ) => (a : ℂ)).getD t 0 = (((ifft p).getD t 0).re : ℂ) := by
      intro t ht
      have ht1 : t < (ifft p).length := by simp [hpl, ht]
      simp only [pressure, List.getD, ← hp, List.replicate_zero, List.append_nil, List.map_map, List.getElem?_map,
        List.getElem?_eq_getElem ht1, Option.map_some, Option.getD_some, Function.comp]
    rw [fft_congr _ _ _ _ hc, fft_re n i hn0 hi.le]
    have hq : ∀ i, i < n → Dft.fft .backward n (fun t => (ifft p).getD t 0) i = p.getD i 0 := by
      intro i hi
      have := fft_getD (ifft p) i (by simp [hpl, hi])
      rw [fft_ifft, length_ifft, hpl] at this
      exact this.symm
    rw [hq i hi]
    by_cases hi0 : i = 0
    · rw [if_pos hi0, hi0, Nat.sub_zero, fft_period n hn0, hq 0 hn0]
    · rw [if_neg hi0, hq (n - i) (by omega)]
  have e2 : ∀ i, i < n → p.getD i 0 = if n / 2 ≤ i then 0 else (mixed x).getD i 0 := by
    intro i hi
    rw [hp, lowerHalf_getD _ _ (by simpa using hi)]
    simp [hn]
  have e3 : (mixed x).getD k 0 = (fft x).getD j 0 := by
    unfold mixed
    rw [roll_getD _ _ _ (by simpa using hkn), length_fft, ← hn]
    rw [hk, index_up n j (n / 4) hj, Int.toNat_natCast]
  -- the received spectrum
  unfold analytic
  rw [fft_ifft, hpr]
  have hl1 : (lowerHalf (fft ((pressure 0 (mixed x)).map fun (a : ℝ) => (a : ℂ)))).length = n := by simp [hpr]
  have e4 : ((roll (lowerHalf (fft ((pressure 0 (mixed x)).map fun (a : ℝ) => (a : ℂ)))) (-((n / 4 : ℕ) : ℤ) - 1)).map
      (2 * ·)).getD j 0 = 2 * (lowerHalf (fft ((pressure 0 (mixed x)).map fun (a : ℝ) => (a : ℂ)))).getD k 0 := by
    rw [getD_double, roll_getD _ _ _ (by rw [hl1]; exact hj), hl1]
    rw [index_down, Int.toNat_natCast, ← hk]
  rw [e4, lowerHalf_getD _ _ (by simpa [hpr] using hkn)]
  rw [show (fft ((pressure 0 (mixed x)).map fun (a : ℝ) => (a : ℂ))).length = n by simp [hpr]]
  by_cases h1 : n / 2 ≤ k
  · rw [if_pos h1, if_pos h1, mul_zero]
  · rw [if_neg h1, if_neg h1, e1 k hkn, e2 k hkn, if_neg h1, e3]
    by_cases h2 : k = 0
    · rw [if_pos h2, if_pos h2, e2 0 hn0, if_neg (by omega)]
      have : (mixed x).getD 0 0 = (fft x).getD j 0 := by rw [← e3, h2]
      rw [this, Complex.re_eq_add_conj]
    · rw [if_neg h2, if_neg h2, e2 (n - k) (by omega), if_pos (by omega), map_zero, add_zero]
      ring

theorem chunk_flatten {α : Type} (L : ℕ) : ∀ (x : List (List α)) (i : ℕ) (_ : i < x.length), (∀ l ∈ x, l.length = L) →
    (x.flatten.drop (i * L)).take L = x.getD i [] := by
  intro x
  induction x with
  | nil => intro i hi; simp at hi
  | cons r x ih =>
    intro i hi h
    have hr : r.length = L := h r (List.mem_cons_self ..)
    cases i with
    | zero => simp [hr]
    | succ i =>
      have := ih i (by simpa using hi) fun l hl => h l (List.mem_cons_of_mem _ hl)
      rw [List.flatten_cons, List.drop_append, hr, show (i + 1) * L - L = i * L by rw [Nat.succ_mul]; omega,
        List.drop_of_length_le (by rw [hr, Nat.succ_mul]; omega)]
      simpa using this

theorem flatten_length {α : Type} (L : ℕ) : ∀ (x : List (List α)), (∀ l ∈ x, l.length = L) → x.flatten.length = x.length * L := by
  intro x
  induction x with
  | nil => simp
  | cons r x ih =>
    intro h
    rw [List.flatten_cons, List.length_append, ih fun l hl => h l (List.mem_cons_of_mem _ hl), h r (List.mem_cons_self ..)]
    simp [Nat.succ_mul, Nat.add_comm]

/-- Reshaping to the shape an array has. -/
theorem reshape_same {α : Type} (L p : ℕ) (x : List (List α)) (hp : x.length = p) (h0 : p ≠ 0) (h : ∀ l ∈ x, l.length = L) :
    reshape p x = .ok x := by
  unfold reshape
  rw [flatten_length L x h, hp, if_neg h0, if_neg (by simp), Nat.mul_div_cancel_left _ (Nat.pos_of_ne_zero h0)]
  congr 1
  apply List.ext_getElem
  · simp [hp]
  · intro i h1 h2
    simp only [List.getElem_map, List.getElem_range]
    rw [chunk_flatten L x i h2 h]
    simp [List.getD, h2]

theorem played_nodup : ∀ (c : List ℕ) (t : List (List ℝ)) (i : ℕ) (hi : i < c.length) (hi' : i < t.length), c.Nodup →
    played c t c[i] = some t[i] := by
  intro c
  induction c with
  | nil => intro t i hi; simp at hi
  | cons a c ih =>
    intro t i hi hi' hn
    cases t with
    | nil => simp at hi'
    | cons r t =>
      cases i with
      | zero => simp [played]
      | succ i =>
        have hi1 : i < c.length := by simpa using hi
        have hne : a ≠ c[i] := by
          intro h
          exact (List.nodup_cons.mp hn).1 (h ▸ List.getElem_mem hi1)
        have := ih t i hi1 (by simpa using hi') (List.nodup_cons.mp hn).2
        unfold played at this ⊢
        simp only [List.zip_cons_cons, List.getElem_cons_succ]
        rw [List.find?_cons_of_neg (by simpa using hne)]
        exact this

theorem record_loop (c : List ℕ) (t : List (List ℝ)) (n : ℕ) (hc : c.Nodup) (hl : t.length = c.length) :
    c.map (cable n (played c t)) = t := by
  apply List.ext_getElem
  · simp [hl]
  · intro i h1 h2
    simp only [List.getElem_map]
    unfold cable
    rw [played_nodup c t i (by omega) h2 hc]
    rfl

theorem upload_ok (d : Dev) (x : Sig) (N : ℕ) (hp : d.playback.length = d.record.length) (hx : x.streams.length = d.record.length)
    (h0 : d.record ≠ []) (hN : ∀ l ∈ x.streams, l.length = N) :
    ∃ u, upload d x = .ok ((x.streams.map fun l => pressure d.delay (mixed l)), u) := by
  have hne : d.record.length ≠ 0 := by simpa using h0
  unfold upload
  rw [reshape_same N d.tx _ (by simp [hx, Dev.tx]) (by simpa [Dev.tx] using h0) (by
    intro l hl; obtain ⟨y, hy, rfl⟩ := List.mem_map.mp hl; simp [hN y hy])]
  simp only
  rw [reshape_same (N + d.delay) d.rx _ (by simp [hx, Dev.rx, hp]) (by rw [Dev.rx, hp]; exact hne) (by
    intro l hl
    obtain ⟨y, hy, rfl⟩ := List.mem_map.mp hl
    obtain ⟨z, hz, rfl⟩ := List.mem_map.mp hy
    simp [pressure, hN z hz])]
  exact ⟨_, by rw [List.map_map]; rfl⟩

theorem transceive_loop (d : Dev) (x : Sig) (N n : ℕ) (hp : d.playback = d.record) (hd : d.record.Nodup)
    (hx : x.streams.length = d.record.length) (h0 : d.record ≠ []) (hN : ∀ l ∈ x.streams, l.length = N) :
    transceive (cable n) d x = .ok ⟨d.fs, 0, x.streams.map fun l => analytic (pressure d.delay (mixed l))⟩ := by
  obtain ⟨u, hu⟩ := upload_ok d x N (by rw [hp]) hx h0 hN
  unfold transceive
  rw [hu]
  simp only
  unfold trigger
  rw [if_neg (by simp [hx, hp]), hp, record_loop _ _ n hd (by simp [hx])]
  simp only [Except.map, download, List.map_map, Function.comp_def]

theorem analytic_length (l : List ℂ) : (analytic (pressure 0 (mixed l))).length = l.length := by
  simp [analytic, pressure]

theorem getElem_getD (l : List ℂ) (j : ℕ) (h : j < l.length) : l[j] = l.getD j 0 := by
  rw [List.getD, List.getElem?_eq_getElem h]; rfl

theorem eq_of_spectrum (a b : List ℂ) (hl : a.length = b.length) (h : ∀ j < b.length, (fft a).getD j 0 = (fft b).getD j 0) :
    a = b := by
  have : fft a = fft b := by
    apply List.ext_getElem
    · simp [hl]
    · intro j h1 h2
      rw [getElem_getD _ _ h1, getElem_getD _ _ h2]
      exact h j (by simpa using h2)
  rw [← ifft_fft a, this, ifft_fft]

/-- One stream without energy outside of the received bins. -/
theorem stream_exact (l : List ℂ) (h : ∀ j < l.length, ((j + l.length / 4 + 1) % l.length = 0 ∨
    l.length / 2 ≤ (j + l.length / 4 + 1) % l.length) → (fft l).getD j 0 = 0) :
    analytic (pressure 0 (mixed l)) = l := by
  apply eq_of_spectrum _ _ (analytic_length l)
  intro j hj
  rw [loop_spectrum l j hj]
  by_cases c1 : l.length / 2 ≤ (j + l.length / 4 + 1) % l.length
  · rw [if_pos c1, h j hj (Or.inr c1)]
  · rw [if_neg c1]
    by_cases c2 : (j + l.length / 4 + 1) % l.length = 0
    · rw [if_pos c2, h j hj (Or.inl c2), Complex.zero_re, Complex.ofReal_zero, mul_zero]
    · rw [if_neg c2]

theorem fft_zero (n j : ℕ) (hj : j < n) : (fft (List.replicate n 0)).getD j 0 = 0 := by
  rw [fft_getD _ _ (by simpa using hj)]
  unfold Dft.fft
  rw [Finset.sum_eq_zero, mul_zero]
  intro i hi
  have hi' : i < n := by simpa using hi
  simp [List.getD, hi']

/-- One stream with energy at lost bins only. -/
theorem stream_lost (l : List ℂ) (h : ∀ j < l.length, (j + l.length / 4 + 1) % l.length < l.length / 2 → (fft l).getD j 0 = 0) :
    analytic (pressure 0 (mixed l)) = List.replicate l.length 0 := by
  apply eq_of_spectrum _ _ (by rw [analytic_length]; simp)
  intro j hj
  have hj' : j < l.length := by simpa using hj
  rw [loop_spectrum l j hj', fft_zero _ _ hj']
  by_cases c1 : l.length / 2 ≤ (j + l.length / 4 + 1) % l.length
  · rw [if_pos c1]
  · rw [if_neg c1, h j hj' (by omega)]
    simp only [Complex.zero_re, Complex.ofReal_zero, mul_zero, ite_self]

theorem delay_zero (d : Dev) (h : d.maxDelay * d.fs < 1) : d.delay = 0 := by
  unfold Dev.delay
  have : ⌊d.maxDelay * d.fs⌋ < 1 := Int.floor_lt.mpr (by simpa using h)
  omega

/-! ### C114 -/

/-- **C114, loopback.** A device whose channels record what they play, without a receive delay: the spectrum of each received
stream is that of the transmitted one at the bins `-⌊N/4⌋, …, ⌊N/2⌋ - 2 - ⌊N/4⌋`, twice the real part at the bin below them, and zero
at all others.  Hence signals confined to those bins are received exactly.  Missing, see the theorems below: other bins within
half the sampling rate, receive delays. -/
theorem C114_loopback_partial (d : Dev) (x : Sig) (N n : ℕ) (hp : d.playback = d.record) (hd : d.record.Nodup)
    (hx : x.streams.length = d.record.length) (h0 : d.record ≠ []) (hN : ∀ l ∈ x.streams, l.length = N)
    (hdel : d.maxDelay * d.fs < 1) :
    ∃ y, transceive (cable n) d x = .ok y ∧ y.rate = d.fs ∧ y.streams.length = x.streams.length ∧
      (∀ l ∈ y.streams, l.length = N) ∧
      (∀ i < x.streams.length, ∀ j < N, (fft (y.streams.getD i [])).getD j 0 =
        if N / 2 ≤ (j + N / 4 + 1) % N then 0
        else if (j + N / 4 + 1) % N = 0 then 2 * (((fft (x.streams.getD i [])).getD j 0).re : ℂ)
        else (fft (x.streams.getD i [])).getD j 0) ∧
      ((∀ l ∈ x.streams, ∀ j < N, ((j + N / 4 + 1) % N = 0 ∨ N / 2 ≤ (j + N / 4 + 1) % N) → (fft l).getD j 0 = 0) →
        y.streams = x.streams) := by
  have hdelay := delay_zero d hdel
  have ht := transceive_loop d x N n hp hd hx h0 hN
  rw [hdelay] at ht
  refine ⟨_, ht, rfl, by simp, ?_, ?_, ?_⟩
  · intro l hl
    obtain ⟨z, hz, rfl⟩ := List.mem_map.mp hl
    rw [analytic_length, hN z hz]
  · intro i hi j hj
    have e1 : (x.streams.map fun l => analytic (pressure 0 (mixed l))).getD i [] =
        analytic (pressure 0 (mixed (x.streams[i]))) := by simp only [List.getD, List.getElem?_map, List.getElem?_eq_getElem hi,
          Option.map_some, Option.getD_some]
    have e2 : x.streams.getD i [] = x.streams[i] := by simp [List.getD, hi]
    have := loop_spectrum (x.streams[i]) j (by rw [hN _ (List.getElem_mem hi)]; exact hj)
    rw [hN _ (List.getElem_mem hi)] at this
    simp only [e1, e2]
    exact this
  · intro hz
    have : ∀ l ∈ x.streams, analytic (pressure 0 (mixed l)) = id l := by
      intro l hl
      apply stream_exact
      rw [hN l hl]
      exact hz l hl
    exact (List.map_congr_left this).trans (List.map_id _)

/-- **C114, refuted at the upper band edge.** For `4 m` samples the tone at bin `m - 1`, below a quarter of the sampling rate, is
not received at all, though the one at bin `-m` is received exactly. -/
theorem C114_edge_fails (d : Dev) (m n : ℕ) (hm : 1 < m) (hp : d.playback = d.record) (hd : d.record.length = 1)
    (hdel : d.maxDelay * d.fs < 1) (rate carrier : ℚ) (A : ℂ) :
    transceive (cable n) d ⟨rate, carrier, [ifft ((List.range (4 * m)).map fun (j : ℕ) => if j = m - 1 then A else 0)]⟩ =
        .ok ⟨d.fs, 0, [List.replicate (4 * m) 0]⟩ ∧
      transceive (cable n) d ⟨rate, carrier, [ifft ((List.range (4 * m)).map fun (j : ℕ) => if j = 3 * m then A else 0)]⟩ =
        .ok ⟨d.fs, 0, [ifft ((List.range (4 * m)).map fun (j : ℕ) => if j = 3 * m then A else 0)]⟩ := by
  have hd1 : d.record.Nodup := by
    match h : d.record, hd with
    | [a], _ => simp
  have h0 : d.record ≠ [] := by intro h; rw [h] at hd; simp at hd
  have hdelay := delay_zero d hdel
  constructor
  · rw [transceive_loop d _ (4 * m) n hp hd1 (by simp [hd]) h0 (by simp)]
    simp only [List.map_cons, List.map_nil, hdelay]
    rw [stream_lost]
    · simp
    · simp only [length_ifft, List.length_map, List.length_range]
      intro j hj hc
      rw [fft_ifft, getD_map_range _ _ _ hj, if_neg]
      intro hj3
      rw [hj3, show m - 1 + 4 * m / 4 + 1 = 2 * m by omega, Nat.mod_eq_of_lt (by omega)] at hc
      omega
  · rw [transceive_loop d _ (4 * m) n hp hd1 (by simp [hd]) h0 (by simp)]
    simp only [List.map_cons, List.map_nil, hdelay]
    rw [stream_exact]
    simp only [length_ifft, List.length_map, List.length_range]
    intro j hj hc
    rw [fft_ifft, getD_map_range _ _ _ hj, if_neg]
    intro hj3
    rw [hj3, show 3 * m + 4 * m / 4 + 1 = 1 + 4 * m by omega, Nat.add_mod_right, Nat.mod_eq_of_lt (by omega)] at hc
    omega

/-! #### A receive delay of as many samples as are transmitted -/

/-- The root of unity of order eight. -/
noncomputable def w : ℂ := Complex.exp (2 * Real.pi * Complex.I / 8)

theorem w_sq : w ^ 2 = Complex.I := by
  unfold w
  rw [← Complex.exp_nat_mul]
  rw [show ((2 : ℕ) : ℂ) * (2 * Real.pi * Complex.I / 8) = Real.pi / 2 * Complex.I by push_cast; ring]
  exact Complex.exp_pi_div_two_mul_I

theorem exp_w (m j : ℕ) : Complex.exp (2 * Real.pi * Complex.I * m * j / 8) = w ^ (m * j) := by
  unfold w
  rw [← Complex.exp_nat_mul]
  congr 1
  push_cast
  ring

theorem exp_neg_w (m j : ℕ) : Complex.exp (-(2 * Real.pi * Complex.I * m * j / 8)) = w ^ (7 * (m * j)) := by
  have h8 : w ^ 8 = 1 := by rw [show (8 : ℕ) = 2 * 4 by rfl, pow_mul, w_sq, Complex.I_pow_four]
  rw [Complex.exp_neg, exp_w]
  have h0 : w ^ (m * j) ≠ 0 := pow_ne_zero _ (Complex.exp_ne_zero _)
  have : w ^ (m * j) * w ^ (7 * (m * j)) = 1 := by
    rw [← pow_add, show m * j + 7 * (m * j) = 8 * (m * j) by ring, pow_mul, h8, one_pow]
  field_simp
  exact this.symm

theorem exp_quarter (m j : ℕ) : Complex.exp (2 * Real.pi * Complex.I * m * j / 4) = Complex.I ^ (m * j) := by
  have := exp_w m (2 * j)
  rw [show m * (2 * j) = 2 * (m * j) by ring, pow_mul, w_sq] at this
  rw [← this]
  congr 1
  push_cast
  ring

theorem delayed_pressure : pressure 4 (mixed (ifft [0, 0, 0, 4])) = [1, 0, -1, 0, 0, 0, 0, 0] := by
  have h1 : mixed (ifft [0, 0, 0, 4]) = [0, 4, 0, 0] := by
    unfold mixed
    rw [fft_ifft]
    simp [roll, List.range_succ]
  have h2 : lowerHalf [0, 4, 0, 0] = [0, 4, 0, 0] := by simp [lowerHalf, List.range_succ]
  have h3 : ∀ t : ℕ, Dft.ifft .backward 4 (fun (j : ℕ) => ([0, 4, 0, 0] : List ℂ).getD j 0) t = Complex.I ^ t := by
    intro t
    unfold Dft.ifft
    simp only [Finset.sum_range_succ, Finset.sum_range_zero, Norm.bwd]
    have := exp_quarter t 1
    push_cast at this ⊢
    rw [this]
    simp
  unfold pressure
  rw [h1, h2]
  simp only [ifft, List.length_cons, List.length_nil, List.map_map]
  simp only [Nat.zero_add, Nat.reduceAdd, Function.comp_def, h3]
  simp [List.range_succ, pow_succ, List.replicate]

theorem delayed_second : (analytic [1, 0, -1, 0, 0, 0, 0, 0]).getD 1 0 = 1 / 2 * (1 - Complex.I) - 1 / 2 * (Complex.I * w) := by
  have hf : ∀ k : ℕ, Dft.fft .backward 8 (fun (j : ℕ) => ([1, 0, -1, 0, 0, 0, 0, 0] : List ℂ).getD j 0) k =
      1 - (-Complex.I) ^ k := by
    intro k
    unfold Dft.fft
    simp only [Finset.sum_range_succ, Finset.sum_range_zero, Norm.fwd]
    have h2 := exp_neg_w k 2
    rw [show 7 * (k * 2) = 2 * 7 * k by ring, pow_mul, pow_mul, w_sq] at h2
    have h7 : Complex.I ^ 7 = -Complex.I := by
      rw [show (7 : ℕ) = 4 + 3 by rfl, pow_add, Complex.I_pow_four, Complex.I_pow_three, one_mul]
    rw [h7] at h2
    push_cast at h2 ⊢
    rw [h2]
    simp
    ring
  have hF : fft ([1, 0, -1, 0, 0, 0, 0, 0].map fun (a : ℝ) => (a : ℂ)) =
      (List.range 8).map fun (k : ℕ) => 1 - (-Complex.I) ^ k := by
    unfold fft
    simp only [List.length_map, List.length_cons, List.length_nil]
    apply List.map_congr_left
    intro k _
    rw [← hf k]
    simp
  have hL : lowerHalf ((List.range 8).map fun (k : ℕ) => 1 - (-Complex.I) ^ k) =
      [0, 1 + Complex.I, 2, 1 - Complex.I, 0, 0, 0, 0] := by
    simp [lowerHalf, List.range_succ, pow_succ]
    norm_num
  have hR : (roll [0, 1 + Complex.I, 2, 1 - Complex.I, 0, 0, 0, 0] (-((8 / 4 : ℕ) : ℤ) - 1)).map (2 * ·) =
      [2 * (1 - Complex.I), 0, 0, 0, 0, 0, 2 * (1 + Complex.I), 4] := by
    simp [roll, List.range_succ]
    norm_num
  unfold analytic
  rw [hF, hL]
  simp only [List.length_cons, List.length_nil]
  rw [hR, ifft_getD _ _ (by simp)]
  unfold Dft.ifft
  simp only [List.length_cons, List.length_nil, Finset.sum_range_succ, Finset.sum_range_zero, Norm.bwd]
  have h6 := exp_w 1 6
  have h7 := exp_w 1 7
  rw [show 1 * 6 = 2 * 3 by rfl, pow_mul, w_sq, Complex.I_pow_three] at h6
  rw [show 1 * 7 = 2 * 3 + 1 by rfl, pow_add, pow_mul, w_sq, Complex.I_pow_three, pow_one] at h7
  push_cast at h6 h7 ⊢
  rw [h6, h7]
  simp
  linear_combination (-(1 : ℂ) / 4) * Complex.I_sq

/-- **C114, refuted for receive delays.** The delay appended to the transmission changes the mixing frequency of the receiver.
A device with a receive delay of four samples does not receive what it transmits, though without any delay in the cable the
same four samples are received exactly by a device without that parameter. -/
theorem C114_delay_fails (d : Dev) (n : ℕ) (hp : d.playback = d.record) (hd : d.record.length = 1) (rate carrier : ℚ) :
    (d.maxDelay = 0 → transceive (cable n) d ⟨rate, carrier, [ifft [0, 0, 0, 4]]⟩ = .ok ⟨d.fs, 0, [ifft [0, 0, 0, 4]]⟩) ∧
    (d.maxDelay * d.fs = 4 → ∃ y, transceive (cable n) d ⟨rate, carrier, [ifft [0, 0, 0, 4]]⟩ = .ok ⟨d.fs, 0, [y]⟩ ∧
      y.getD 1 0 ≠ (ifft [0, 0, 0, 4]).getD 1 0) := by
  have hd1 : d.record.Nodup := by
    match h : d.record, hd with
    | [a], _ => simp
  have h0 : d.record ≠ [] := by intro h; rw [h] at hd; simp at hd
  have ht := transceive_loop d ⟨rate, carrier, [ifft [0, 0, 0, 4]]⟩ 4 n hp hd1 (by simp [hd]) h0 (by simp)
  simp only [List.map_cons, List.map_nil] at ht
  constructor
  · intro hm
    rw [ht, delay_zero d (by rw [hm]; simp), stream_exact]
    simp only [length_ifft, List.length_cons, List.length_nil, fft_ifft]
    intro j hj hc
    have : j ≠ 3 := by rintro rfl; simp at hc
    have hj' : j = 0 ∨ j = 1 ∨ j = 2 := by omega
    rcases hj' with rfl | rfl | rfl <;> rfl
  · intro hm
    have h4 : d.delay = 4 := by
      unfold Dev.delay
      rw [hm]
      rfl
    rw [h4, delayed_pressure] at ht
    refine ⟨_, ht, ?_⟩
    rw [delayed_second, ifft_getD _ _ (by simp)]
    have hx : Dft.ifft .backward ([0, 0, 0, 4] : List ℂ).length (fun (j : ℕ) => ([0, 0, 0, 4] : List ℂ).getD j 0) 1 = -Complex.I := by
      unfold Dft.ifft
      simp only [List.length_cons, List.length_nil, Finset.sum_range_succ, Finset.sum_range_zero, Norm.bwd]
      have := exp_quarter 1 3
      rw [Nat.one_mul, Complex.I_pow_three] at this
      push_cast at this ⊢
      rw [this]
      simp
    rw [hx]
    intro h
    have h1 : w = 1 - Complex.I := by
      have : Complex.I * (w - (1 - Complex.I)) = 0 := by
        linear_combination (-2 : ℂ) * h + Complex.I_sq
      rcases mul_eq_zero.mp this with h | h
      · exact absurd h Complex.I_ne_zero
      · exact sub_eq_zero.mp h
    have h2 := w_sq
    rw [h1] at h2
    have : (3 : ℂ) * Complex.I = 0 := by linear_combination (-1 : ℂ) * h2 + Complex.I_sq
    simp at this

/-- **C114, refuted for different numbers of channels.** The numbers of transmitting and receiving antennas are exchanged: a
device with different numbers of playback and record channels cannot be triggered, whatever is uploaded. -/
theorem C114_ports_fails (card : (ℕ → Option (List ℝ)) → ℕ → List ℝ) (d : Dev) (x : Sig)
    (h : d.playback.length ≠ d.record.length) : ∃ e, transceive card d x = .error e := by
  unfold transceive
  cases hu : upload d x with
  | error e => exact ⟨e, rfl⟩
  | ok u =>
    have hl : u.1.length = d.record.length := by
      unfold upload at hu
      cases h1 : reshape d.tx (x.streams.map mixed) with
      | error e => rw [h1] at hu; simp at hu
      | ok p =>
        rw [h1] at hu
        simp only at hu
        have hp : p.length = d.record.length := by
          unfold reshape at h1
          split at h1
          · simp at h1
          · split at h1
            · simp at h1
            · injection h1 with h1
              rw [← h1]; simp [Dev.tx]
        cases h2 : reshape d.rx (p.map (pressure d.delay)) with
        | error e => rw [h2] at hu; simp at hu
        | ok v =>
          rw [h2] at hu
          simp only at hu
          injection hu with hu
          rw [← hu]; simp [hp]
    simp only
    unfold trigger
    rw [if_pos (by rw [hl]; exact Ne.symm h)]
    exact ⟨_, rfl⟩

/-- **C114, refuted for received signals.** Received signals have carrier frequency zero, devices half their sampling rate: a
received signal cannot be transmitted directly by the device that received it. -/
theorem C114_carrier_fails {H : Type} (card : (ℕ → Option (List ℝ)) → ℕ → List ℝ) (d : Dev) (hfs : 0 < d.fs) (x y : Sig)
    (hy : transceive card d x = .ok y) (e : HwDevice.Env H) (he : e.carrier = d.carrier) (s : HwDevice.State H) (r : ℕ)
    (hr : s.memory r = y) (c : Bool) : HwDevice.triggerDirect e s r c = (s, .error .value) := by
  apply HwDevice.C111_direct_mismatch
  left
  have hc : y.carrier = 0 := by
    unfold transceive at hy
    cases hu : upload d x with
    | error e => rw [hu] at hy; simp at hy
    | ok u =>
      rw [hu] at hy
      simp only at hy
      cases ht : trigger card d u.1 with
      | error e => rw [ht] at hy; simp [Except.map] at hy
      | ok t =>
        rw [ht] at hy
        simp only [Except.map] at hy
        injection hy with hy
        rw [← hy]; rfl
  rw [hr, hc, he, Dev.carrier]
  intro h
  have : (0 : ℚ) < 1 / 2 * d.fs := by positivity
  rw [← h] at this
  exact lt_irrefl _ this

/-- **C114, construction and storage.** Devices are created exactly for identifiers that are not negative, a positive sampling
rate, an oversampling factor of at least one and a delay that is not negative; by default they play and record at channel one.
Storing and loading a device preserves everything but its delay. -/
theorem C114_storage_partial (pd rd : ℤ) (pc rc : Option (List ℕ)) (fs : ℚ) (os : ℤ) (md : ℚ) :
    ((∃ d, new pd rd pc rc fs os md = .ok d) ↔ 0 ≤ pd ∧ 0 ≤ rd ∧ 0 < fs ∧ 1 ≤ os ∧ 0 ≤ md) ∧
    ∀ d, new pd rd pc rc fs os md = .ok d → restore d = .ok { d with maxDelay := 0 } ∧
      (pc = none → d.playback = [1]) ∧ (rc = none → d.record = [1]) := by
  unfold new
  by_cases h1 : md < 0
  · rw [if_pos h1]; simp; intros; exact h1
  rw [if_neg h1]
  by_cases h2 : pd < 0
  · rw [if_pos h2]; simp; omega
  rw [if_neg h2]
  by_cases h3 : rd < 0
  · rw [if_pos h3]; simp; omega
  rw [if_neg h3]
  by_cases h4 : fs ≤ 0
  · rw [if_pos h4]; simp; intros; linarith
  rw [if_neg h4]
  by_cases h5 : os < 1
  · rw [if_pos h5]; simp; omega
  rw [if_neg h5]
  refine ⟨⟨fun _ => ⟨by omega, by omega, by linarith, by omega, by linarith⟩, fun _ => ⟨_, rfl⟩⟩, fun d hd => ?_⟩
  injection hd with hd
  subst hd
  refine ⟨?_, ?_, ?_⟩
  · unfold restore new
    simp only
    rw [if_neg (by simp), if_neg h2, if_neg h3, if_neg h4, if_neg h5]
    rfl
  · rintro rfl; rfl
  · rintro rfl; rfl

/-- **C114, refuted for storage.** The receive delay of a device is lost. -/
theorem C114_storage_fails (pd rd : ℤ) (pc rc : Option (List ℕ)) (fs : ℚ) (os : ℤ) (md : ℚ) (hm : md ≠ 0) (d : Dev)
    (h : new pd rd pc rc fs os md = .ok d) : ∃ d', restore d = .ok d' ∧ d' ≠ d := by
  refine ⟨_, ((C114_storage_partial pd rd pc rc fs os md).2 d h).1, ?_⟩
  have hd : d.maxDelay = md := by
    unfold new at h
    split at h; · simp at h
    split at h; · simp at h
    split at h; · simp at h
    split at h; · simp at h
    split at h; · simp at h
    injection h with h
    rw [← h]
  intro h'
  have := congrArg Dev.maxDelay h'
  simp only at this
  exact hm (hd ▸ this.symm)

/-! ### Examples -/

/-- A device with two channels. -/
def stereo : Dev := ⟨0, 1, [1, 2], [1, 2], 48000, 2, 0⟩

example : new 0 1 (some [1, 2]) (some [1, 2]) 48000 2 0 = .ok stereo := by simp [new, stereo]

/-- Two streams of eight samples within the received bins. -/
example : transceive (cable 0) stereo ⟨48000, 24000, [ifft [1, 0, 0, 0, 0, 0, 2, 3], ifft [0, 0, 0, 0, 0, 0, 0, 5]]⟩ =
    .ok ⟨48000, 0, [ifft [1, 0, 0, 0, 0, 0, 2, 3], ifft [0, 0, 0, 0, 0, 0, 0, 5]]⟩ := by
  obtain ⟨y, h1, _, _, _, _, h2⟩ := C114_loopback_partial stereo
    ⟨48000, 24000, [ifft [1, 0, 0, 0, 0, 0, 2, 3], ifft [0, 0, 0, 0, 0, 0, 0, 5]]⟩ 8 0 rfl (by decide) rfl (by decide) (by simp)
    (by norm_num [stereo])
  rw [transceive_loop stereo _ 8 0 rfl (by decide) rfl (by decide) (by simp)] at h1 ⊢
  injection h1 with h1
  have := h2 (by
    intro l hl j hj hc
    have : j ≠ 0 ∧ j ≠ 6 ∧ j ≠ 7 := ⟨by rintro rfl; simp at hc, by rintro rfl; simp at hc, by rintro rfl; simp at hc⟩
    obtain ⟨h0, h6, h7⟩ := this
    simp only [List.mem_cons, List.not_mem_nil, or_false] at hl
    have hj' : j = 1 ∨ j = 2 ∨ j = 3 ∨ j = 4 ∨ j = 5 := by omega
    rcases hl with rfl | rfl <;> rw [fft_ifft] <;> rcases hj' with rfl | rfl | rfl | rfl | rfl <;> rfl)
  rw [← h1] at this
  simp only at this
  rw [this]
  rfl

/-- One playback and two record channels. -/
example (card : (ℕ → Option (List ℝ)) → ℕ → List ℝ) (x : Sig) :
    ∃ e, transceive card ⟨0, 0, [1], [1, 2], 48000, 2, 0⟩ x = .error e :=
  C114_ports_fails card _ x (by decide)

example : ∃ y, transceive (cable 0) ⟨0, 0, [1], [1], 4, 2, 1⟩ ⟨4, 2, [ifft [0, 0, 0, 4]]⟩ = .ok ⟨4, 0, [y]⟩ ∧
    y.getD 1 0 ≠ (ifft [0, 0, 0, 4]).getD 1 0 :=
  (C114_delay_fails ⟨0, 0, [1], [1], 4, 2, 1⟩ 0 rfl rfl 4 2).2 (by norm_num)

example : ∃ d', restore ⟨0, 0, [1], [1], 4, 2, 1⟩ = .ok d' ∧ d' ≠ ⟨0, 0, [1], [1], 4, 2, 1⟩ :=
  C114_storage_fails 0 0 none none 4 2 1 (by norm_num) _ (by norm_num [new])

/-- A tone within the band that is lost. -/
example : transceive (cable 0) ⟨0, 0, [1], [1], 48000, 2, 0⟩
    ⟨48000, 24000, [ifft ((List.range 8).map fun (j : ℕ) => if j = 1 then Complex.I else 0)]⟩ =
      .ok ⟨48000, 0, [List.replicate 8 0]⟩ :=
  (C114_edge_fails ⟨0, 0, [1], [1], 48000, 2, 0⟩ 2 0 (by omega) rfl rfl (by norm_num) 48000 24000 Complex.I).1

/-- A received signal given back to the device. -/
example {H : Type} (e : HwDevice.Env H) (he : e.carrier = stereo.carrier) (s : HwDevice.State H) (x y : Sig)
    (hy : transceive (cable 0) stereo x = .ok y) (hr : s.memory 0 = y) :
    HwDevice.triggerDirect e s 0 true = (s, .error .value) :=
  C114_carrier_fails (cable 0) stereo (by norm_num [stereo]) x y hy e he s 0 hr true
