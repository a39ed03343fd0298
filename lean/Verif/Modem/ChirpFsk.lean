import Mathlib.Analysis.SpecialFunctions.Complex.Circle
import Mathlib.Analysis.SpecialFunctions.Trigonometric.Basic
import Mathlib.Algebra.BigOperators.Intervals
import Mathlib.Data.Nat.Digits.Lemmas
import Mathlib.Tactic.Linarith
import Mathlib.Tactic.FieldSimp
import Mathlib.Tactic.Ring
import Verif.Np
import Verif.Signal.Model
import Verif.Modem.Frame

/-!
# C89: chirp FSK waveforms

`hermespy/modem/waveform_chirp_fsk.py`.  Durations, frequencies and rates are rational numbers, samples complex numbers.
Symbols are natural numbers, as `map` and `demodulate` yield; the other streams of symbol objects are ignored by the code.
-/

namespace Verif.ChirpFsk

open Verif.Signal (pyRound)
open Verif.Modem (pySlice)

/-- `ChirpFSKWaveform`, lines 31-93.  `sync` is the synchronization routine it refers to. -/
structure Waveform (σ : Type) where
  order : ℕ
  duration : ℚ
  diff : ℚ
  pilots : ℕ
  data : ℕ
  guard : ℚ
  sync : σ

variable {σ : Type}

/-- `ChirpFSKWaveform.__init__`, lines 53-93, with the setters of `modulation_order` (`waveform.py` 314-332), and of lines
114-119, 133-138, 149-164, 175-189 and 200-214.  The base class is given the routine of the caller, if any, and then the
default one `standard` of line 88 is assigned. -/
def Waveform.new (standard : σ) (order : ℤ) (duration diff : ℚ) (pilots data : ℤ) (guard : ℚ) (_sync : Option σ) :
    Except PyErr (Waveform σ) :=
  if order ≤ 0 ∨ order.toNat &&& (order.toNat - 1) ≠ 0 then .error .value
  else if duration < 0 then .error .value
  else if diff < 0 then .error .value
  else if pilots < 0 then .error .value
  else if data < 0 then .error .value
  else if guard < 0 then .error .value
  else .ok ⟨order.toNat, duration, diff, pilots.toNat, data.toNat, guard, standard⟩

/-- `bits_per_symbol`, lines 216-220. -/
def Waveform.bps (w : Waveform σ) : ℕ := Nat.log2 w.order

/-- `frame_duration`, lines 95-100. -/
def Waveform.frameDuration (w : Waveform σ) : ℚ := w.duration * (w.data + w.pilots) + w.guard

/-- `samples_in_chirp`, lines 227-238. -/
def Waveform.perChirp (w : Waveform σ) (B : ℚ) (os : ℕ) : ℕ := ⌈w.duration * B * os⌉.toNat

/-- `samples_per_frame`, lines 246-250. -/
def Waveform.perFrame (w : Waveform σ) (B : ℚ) (os : ℕ) : ℕ :=
  w.perChirp B os * (w.pilots + w.data) + (pyRound (w.guard * B * os)).toNat

/-! ### Mapping -/

/-- Rows of `k` values. -/
def rows {α : Type} (k : ℕ) (xs : List α) : List (List α) :=
  (List.range (xs.length / k)).map fun r => (xs.drop (r * k)).take k

/-- `np.matmul(power_of_2, bits)` of a column. -/
def value (bits : List ℕ) : ℕ := bits.foldl (fun a b => 2 * a + b) 0

/-- `map`, lines 258-261 and 346-361: reshaping fails for no bits per symbol or lengths which are no multiples of it. -/
def Waveform.map (w : Waveform σ) (bits : List ℕ) : Except PyErr (List ℕ) :=
  if w.bps = 0 ∨ bits.length % w.bps ≠ 0 then .error .value
  else .ok ((rows w.bps bits).map value)

/-- `np.binary_repr(s, width)` of numbers not negative: padded to the width, but not cut. -/
def binary (width s : ℕ) : List ℕ :=
  let d := (Nat.digits 2 s).reverse
  List.replicate (width - d.length) 0 ++ d

/-- `unmap`, lines 263-274: assignments of more bits than a symbol has fail.  (`np.binary_repr(0, 0)` is `'0'`; a single bit
cannot be assigned to no bits either, but is broadcast.) -/
def Waveform.unmap (w : Waveform σ) : List ℕ → Except PyErr (List ℕ)
  | [] => .ok []
  | s :: l =>
    if w.bps = 0 then (if s ≤ 1 then w.unmap l else .error .value)
    else if (binary w.bps s).length ≠ w.bps then .error .value
    else match w.unmap l with
      | .error e => .error e
      | .ok b => .ok (binary w.bps s ++ b)

/-! ### Chirps -/

/-- The frequency difference in use, lines 396-400. -/
def Waveform.delta (w : Waveform σ) (B : ℚ) : ℚ := if w.diff = 0 then B / w.order else w.diff

/-- Instantaneous frequency of a prototype, lines 401-412. -/
def Waveform.freq (w : Waveform σ) (B : ℚ) (os : ℕ) (idx n : ℕ) : ℚ :=
  let f := n / (os * B) * (B / w.duration) + (-(1 / 2) * B + idx * w.delta B)
  if f > 1 / 2 * B then f - B else f

/-- Cumulated trapezoids in full turns, lines 414-420. -/
def Waveform.phase (w : Waveform σ) (B : ℚ) (os : ℕ) (idx n : ℕ) : ℚ :=
  ∑ m ∈ Finset.range n, (w.freq B os idx m + w.freq B os idx (m + 1)) / 2 * (1 / (os * B))

/-- `_prototypes`, lines 373-424: samples of the chirp of a symbol. -/
noncomputable def Waveform.proto (w : Waveform σ) (B : ℚ) (os : ℕ) (idx n : ℕ) : ℂ :=
  Complex.exp ((2 * Real.pi * (w.phase B os idx n : ℝ) : ℝ) * Complex.I)

/-- A row of the prototypes. -/
noncomputable def Waveform.chirp (w : Waveform σ) (B : ℚ) (os : ℕ) (idx : ℕ) : List ℂ :=
  (List.range (w.perChirp B os)).map (w.proto B os idx)

/-- `pilot_signal`, lines 426-446; `bandwidth / chirp_duration` (line 401) divides by zero for chirps without duration. -/
noncomputable def Waveform.pilotSignal (w : Waveform σ) (B : ℚ) (os : ℕ) : Except PyErr (List ℂ) :=
  if w.duration = 0 then .error .zeroDivision
  else .ok ((List.range w.pilots).flatMap fun q => w.chirp B os (q % 2 ^ w.bps))

/-- Assignment of a vector to the slice of its length from `idx` on: the slice is cut at the end of the frame, single
samples are broadcast. -/
def writeAt (frame : List ℂ) (idx : ℕ) (xs : List ℂ) : Except PyErr (List ℂ) :=
  if idx + xs.length ≤ frame.length then .ok (frame.take idx ++ xs ++ frame.drop (idx + xs.length))
  else if xs.length = 1 then .ok frame
  else .error .value

/-- The loop of lines 310-315. -/
noncomputable def Waveform.writeSymbols (w : Waveform σ) (B : ℚ) (os : ℕ) (frame : List ℂ) (idx : ℕ) :
    List ℕ → Except PyErr (List ℂ)
  | [] => .ok frame
  | s :: l =>
    if s < 2 ^ w.bps then
      match writeAt frame idx (w.chirp B os s) with
      | .error e => .error e
      | .ok frame => w.writeSymbols B os frame (idx + w.perChirp B os) l
    else .error .index

/-- `modulate`, lines 284-317.  `mem` is what `np.empty` finds in memory. -/
noncomputable def Waveform.modulate (w : Waveform σ) (mem : ℕ → ℂ) (symbols : List ℕ) (B : ℚ) (os : ℕ) : Except PyErr (List ℂ) :=
  match w.pilotSignal B os with
  | .error e => .error e
  | .ok pilot =>
    match writeAt ((List.range (w.perFrame B os)).map mem) 0 pilot with
    | .error e => .error e
    | .ok frame => w.writeSymbols B os frame pilot.length symbols

/-- `np.argmax` of `f 0, …, f (n - 1)`: the first of the largest. -/
noncomputable def argmax (f : ℕ → ℝ) : ℕ → ℕ
  | 0 => 0
  | n + 1 => if f n > f (argmax f n) then n else argmax f n

/-- `demodulate`, lines 319-344. -/
noncomputable def Waveform.demodulate (w : Waveform σ) (signal : List ℂ) (B : ℚ) (os : ℕ) : Except PyErr (List ℕ) :=
  if w.duration = 0 then .error .zeroDivision
  else
    let N := w.perChirp B os
    let frame := pySlice signal (N * w.pilots : ℕ) (N * w.pilots + N * w.data : ℕ)
    if N = 0 ∨ frame.length % N ≠ 0 then .error .value
    else .ok ((rows N frame).map fun x =>
      argmax (fun k => ‖∑ n ∈ Finset.range N, x.getD n 0 * (starRingEnd ℂ) (w.proto B os k n)‖) (2 ^ w.bps))

/-! ### Bits -/

theorem value_lt (bits : List ℕ) (h : ∀ b ∈ bits, b < 2) : value bits < 2 ^ bits.length := by
  suffices H : ∀ (bits : List ℕ) (a : ℕ), (∀ b ∈ bits, b < 2) →
      bits.foldl (fun a b => 2 * a + b) a < (a + 1) * 2 ^ bits.length by simpa [value] using H bits 0 h
  intro bits
  induction bits with
  | nil => intro a _; simp
  | cons b l ih =>
    intro a h
    have hb := h b List.mem_cons_self
    calc (b :: l).foldl (fun a b => 2 * a + b) a = l.foldl (fun a b => 2 * a + b) (2 * a + b) := rfl
      _ < (2 * a + b + 1) * 2 ^ l.length := ih _ fun x hx => h x (List.mem_cons_of_mem _ hx)
      _ ≤ (2 * a + 2) * 2 ^ l.length := Nat.mul_le_mul_right _ (by omega)
      _ = (a + 1) * 2 ^ (b :: l).length := by rw [List.length_cons, pow_succ]; ring

theorem value_ofDigits (bits : List ℕ) : value bits = Nat.ofDigits 2 bits.reverse := by
  unfold value
  induction bits using List.reverseRecOn with
  | nil => simp
  | append_singleton l b ih =>
    rw [List.foldl_append, ih]
    simp [Nat.ofDigits_cons, add_comm]

theorem binary_length (width s : ℕ) (h : s < 2 ^ width) : (binary width s).length = width := by
  have : (Nat.digits 2 s).length ≤ width := by
    by_cases hs : s = 0
    · simp [hs]
    · rw [Nat.length_digits 2 s (by norm_num) hs]
      exact Nat.log_lt_of_lt_pow hs h
  simp only [binary, List.length_append, List.length_replicate, List.length_reverse]
  omega

theorem value_binary (width s : ℕ) : value (binary width s) = s := by
  rw [value_ofDigits, binary]
  simp only [List.reverse_append, List.reverse_reverse, List.reverse_replicate]
  rw [Nat.ofDigits_append, Nat.ofDigits_digits]
  suffices H : ∀ n, Nat.ofDigits 2 (List.replicate n 0) = 0 by simp [H]
  intro n
  induction n with
  | zero => rfl
  | succ n ih => rw [List.replicate_succ, Nat.ofDigits_cons, ih]

theorem binary_bits (width s : ℕ) : ∀ b ∈ binary width s, b < 2 := by
  intro b hb
  simp only [binary, List.mem_append, List.mem_replicate, List.mem_reverse] at hb
  rcases hb with ⟨-, rfl⟩ | hb
  · norm_num
  · exact Nat.digits_lt_base (by norm_num) hb

theorem value_inj : ∀ (a b : List ℕ), a.length = b.length → (∀ x ∈ a, x < 2) → (∀ x ∈ b, x < 2) → value a = value b → a = b := by
  intro a
  induction a using List.reverseRecOn with
  | nil => intro b hl _ _ _; exact (List.length_eq_zero_iff.mp hl.symm).symm
  | append_singleton a x ih =>
    intro b
    induction b using List.reverseRecOn with
    | nil => intro hl; simp at hl
    | append_singleton b y _ =>
      intro hl ha hb hv
      have hx := ha x (by simp)
      have hy := hb y (by simp)
      simp only [value, List.foldl_append, List.foldl_cons, List.foldl_nil] at hv
      have h1 : x = y := by omega
      have h2 : value a = value b := by unfold value; omega
      rw [ih b (by simpa using hl) (fun z hz => ha z (by simp [hz])) (fun z hz => hb z (by simp [hz])) h2, h1]

theorem binary_value (bits : List ℕ) (h : ∀ b ∈ bits, b < 2) : binary bits.length (value bits) = bits :=
  value_inj _ _ (binary_length _ _ (value_lt bits h)) (binary_bits _ _) h (value_binary _ _)

theorem rows_cons {α : Type} (k : ℕ) (hk : 0 < k) (x xs : List α) (hx : x.length = k) : rows k (x ++ xs) = x :: rows k xs := by
  unfold rows
  rw [List.length_append, hx, Nat.add_div_left _ hk, List.range_succ_eq_map, List.map_cons, List.map_map]
  congr 1
  · simp [← hx]
  · apply List.map_congr_left
    intro r _
    simp only [Function.comp]
    rw [Nat.succ_mul, List.drop_append, hx]
    rw [List.drop_eq_nil_of_le (by rw [hx]; omega), List.nil_append]
    congr 2
    omega

theorem rows_nil {α : Type} (k : ℕ) : rows k ([] : List α) = [] := by simp [rows]

/-- Rows of rows. -/
theorem rows_flatten {α : Type} (k : ℕ) (hk : 0 < k) (xs : List (List α)) (h : ∀ x ∈ xs, x.length = k) : rows k xs.flatten = xs := by
  induction xs with
  | nil => simp [rows]
  | cons x xs ih =>
    rw [List.flatten_cons, rows_cons k hk x _ (h x List.mem_cons_self), ih fun y hy => h y (List.mem_cons_of_mem _ hy)]

/-- Lists of multiples of `k` values consist of rows. -/
theorem exists_rows {α : Type} (k : ℕ) (xs : List α) (h : xs.length % k = 0) :
    ∃ ys : List (List α), ys.flatten = xs ∧ ∀ y ∈ ys, y.length = k := by
  obtain ⟨m, hm⟩ := Nat.dvd_of_mod_eq_zero h
  induction m generalizing xs with
  | zero =>
    have : xs = [] := List.length_eq_zero_iff.mp (by simpa using hm)
    exact ⟨[], by simp [this], by simp⟩
  | succ m ih =>
    have hlen : k ≤ xs.length := by rw [hm]; exact Nat.le_mul_of_pos_right _ (by omega)
    have hd : (xs.drop k).length = k * m := by
      rw [List.length_drop, hm, Nat.mul_succ]
      omega
    obtain ⟨ys, h1, h2⟩ := ih (xs.drop k) (by rw [hd]; exact Nat.mul_mod_right _ _) hd
    refine ⟨xs.take k :: ys, by rw [List.flatten_cons, h1, List.take_append_drop], ?_⟩
    intro y hy
    rcases List.mem_cons.mp hy with rfl | hy
    · simp [hlen]
    · exact h2 y hy

/-- C89: bits are mapped to a symbol for each group of bits, which `unmap` maps back to the same bits. -/
theorem C89_bits (w : Waveform σ) (hw : 0 < w.bps) (bits : List ℕ) (hb : ∀ b ∈ bits, b < 2) (hl : bits.length % w.bps = 0) :
    ∃ s, w.map bits = .ok s ∧ s.length * w.bps = bits.length ∧ (∀ x ∈ s, x < 2 ^ w.bps) ∧ w.unmap s = .ok bits := by
  obtain ⟨ys, rfl, hys⟩ := exists_rows w.bps bits hl
  have hv : ∀ y ∈ ys, value y < 2 ^ w.bps := by
    intro y hy
    have := value_lt y fun b h => hb b (List.mem_flatten.mpr ⟨y, hy, h⟩)
    rwa [hys y hy] at this
  refine ⟨ys.map value, ?_, ?_, ?_, ?_⟩
  · unfold Waveform.map
    rw [if_neg (by rintro (h | h) <;> omega), rows_flatten w.bps hw ys hys]
  · rw [List.length_map]
    clear hl hb hv
    induction ys with
    | nil => simp
    | cons y ys ih =>
      rw [List.length_cons, List.flatten_cons, List.length_append, hys y List.mem_cons_self,
        ← ih fun z hz => hys z (List.mem_cons_of_mem _ hz)]
      ring
  · intro x hx
    obtain ⟨y, hy, rfl⟩ := List.mem_map.mp hx
    exact hv y hy
  · clear hl
    induction ys with
    | nil => rfl
    | cons y ys ih =>
      have hy := hys y List.mem_cons_self
      have h1 : binary w.bps (value y) = y := by
        rw [← hy]; exact binary_value y fun b h => hb b (List.mem_flatten.mpr ⟨y, List.mem_cons_self, h⟩)
      rw [List.map_cons, Waveform.unmap, if_neg (by omega), h1, if_neg (by simp [hy]),
        ih (fun z hz => hys z (List.mem_cons_of_mem _ hz))
          (fun b h => hb b (by rw [List.flatten_cons]; exact List.mem_append_right _ h))
          (fun z hz => hv z (List.mem_cons_of_mem _ hz))]
      simp

/-! ### Frames -/

theorem norm_proto (w : Waveform σ) (B : ℚ) (os idx n : ℕ) : ‖w.proto B os idx n‖ = 1 := Complex.norm_exp_ofReal_mul_I _

theorem proto_zero (w : Waveform σ) (B : ℚ) (os idx : ℕ) : w.proto B os idx 0 = 1 := by
  simp [Waveform.proto, Waveform.phase]

theorem chirp_length (w : Waveform σ) (B : ℚ) (os idx : ℕ) : (w.chirp B os idx).length = w.perChirp B os := by
  simp [Waveform.chirp]

theorem chirps_length (w : Waveform σ) (B : ℚ) (os : ℕ) (l : List ℕ) :
    ((l.map (w.chirp B os)).flatten).length = w.perChirp B os * l.length := by
  induction l with
  | nil => simp
  | cons s l ih => rw [List.map_cons, List.flatten_cons, List.length_append, ih, chirp_length, List.length_cons]; ring

theorem writeSymbols_spec (w : Waveform σ) (B : ℚ) (os : ℕ) (l : List ℕ) (hl : ∀ s ∈ l, s < 2 ^ w.bps) (done rest : List ℂ)
    (hr : w.perChirp B os * l.length ≤ rest.length) :
    w.writeSymbols B os (done ++ rest) done.length l =
      .ok (done ++ (l.map (w.chirp B os)).flatten ++ rest.drop (w.perChirp B os * l.length)) := by
  induction l generalizing done rest with
  | nil => simp [Waveform.writeSymbols]
  | cons s l ih =>
    have hN := chirp_length w B os s
    rw [List.length_cons, Nat.mul_succ] at hr
    rw [Waveform.writeSymbols, if_pos (hl s List.mem_cons_self)]
    have hw : writeAt (done ++ rest) done.length (w.chirp B os s) =
        .ok ((done ++ w.chirp B os s) ++ rest.drop (w.perChirp B os)) := by
      unfold writeAt
      rw [if_pos (by rw [List.length_append, hN]; omega)]
      simp [hN]
    rw [hw]
    have := ih (fun x hx => hl x (List.mem_cons_of_mem _ hx)) (done ++ w.chirp B os s) (rest.drop (w.perChirp B os))
      (by rw [List.length_drop]; omega)
    rw [List.length_append, hN] at this
    simp only
    rw [this]
    simp only [List.map_cons, List.flatten_cons, List.length_cons, List.drop_drop, List.append_assoc]
    congr 4
    ring_nf

/-- Bits that do not fill whole symbols are refused, not dropped. -/
theorem C89_incomplete (w : Waveform σ) (bits : List ℕ) (h : bits.length % w.bps ≠ 0) :
    w.map bits = .error .value := by
  rw [Waveform.map, if_pos (Or.inr h)]

example : (⟨4, 5 / 2, 0, 0, 1, 0, ()⟩ : Waveform Unit).map [1, 0, 1] = .error .value := by
  have hb : (⟨4, 5 / 2, 0, 0, 1, 0, ()⟩ : Waveform Unit).bps = 2 := by
    show Nat.log2 4 = 2
    decide +kernel
  exact C89_incomplete _ _ (by rw [hb]; decide)

/-- C89: a frame consists of the pilot chirps, the chirps of all symbols in their order, and the guard interval. -/
theorem C89_frame (w : Waveform σ) (hd : w.duration ≠ 0) (mem : ℕ → ℂ) (B : ℚ) (os : ℕ) (symbols : List ℕ)
    (hs : ∀ s ∈ symbols, s < 2 ^ w.bps) (hl : symbols.length = w.data) :
    ∃ pilot guard : List ℂ, w.pilotSignal B os = .ok pilot ∧ pilot.length = w.perChirp B os * w.pilots ∧
      guard.length = (pyRound (w.guard * B * os)).toNat ∧
      w.modulate mem symbols B os = .ok (pilot ++ (symbols.map (w.chirp B os)).flatten ++ guard) ∧
      guard = ((List.range (w.perFrame B os)).map mem).drop (w.perChirp B os * (w.pilots + w.data)) := by
  have hp : w.pilotSignal B os = .ok (((List.range w.pilots).map fun q => q % 2 ^ w.bps).map (w.chirp B os)).flatten := by
    unfold Waveform.pilotSignal
    rw [if_neg hd, List.map_map]
    rfl
  have hpl := chirps_length w B os ((List.range w.pilots).map fun q => q % 2 ^ w.bps)
  rw [List.length_map, List.length_range] at hpl
  refine ⟨_, _, hp, hpl, ?_, ?_, rfl⟩
  · rw [List.length_drop, List.length_map, List.length_range, Waveform.perFrame]
    omega
  · unfold Waveform.modulate
    rw [hp]
    generalize (((List.range w.pilots).map fun q => q % 2 ^ w.bps).map (w.chirp B os)).flatten = pilot at hpl
    have hF : ((List.range (w.perFrame B os)).map mem).length =
        w.perChirp B os * w.pilots + w.perChirp B os * w.data + (pyRound (w.guard * B * os)).toNat := by
      rw [List.length_map, List.length_range, Waveform.perFrame, Nat.mul_add]
    have hw : writeAt ((List.range (w.perFrame B os)).map mem) 0 pilot =
        .ok (pilot ++ ((List.range (w.perFrame B os)).map mem).drop (w.perChirp B os * w.pilots)) := by
      unfold writeAt
      rw [if_pos (by rw [hF, hpl]; omega)]
      simp [hpl]
    simp only [hw]
    rw [writeSymbols_spec w B os symbols hs pilot _ (by rw [List.length_drop, hF, hl]; omega), hl, List.drop_drop, Nat.mul_add]

/-- C89: chirps have a magnitude of one, so the energy of each symbol is the number of samples in a chirp. -/
theorem C89_energy (w : Waveform σ) (B : ℚ) (os idx : ℕ) :
    (∀ z ∈ w.chirp B os idx, ‖z‖ = 1) ∧ ((w.chirp B os idx).map fun z => ‖z‖ ^ 2).sum = w.perChirp B os := by
  have h : ∀ z ∈ w.chirp B os idx, ‖z‖ = 1 := by
    intro z hz
    obtain ⟨n, -, rfl⟩ := List.mem_map.mp hz
    exact norm_proto w B os idx n
  refine ⟨h, ?_⟩
  rw [List.map_congr_left (g := fun _ => (1 : ℝ)) fun z hz => by rw [h z hz]; norm_num]
  simp [chirp_length]

/-! ### Detection -/

theorem argmax_spec (f : ℕ → ℝ) (n j : ℕ) (hj : j < n) (h : ∀ k < n, k ≠ j → f k < f j) : argmax f n = j := by
  induction n with
  | zero => omega
  | succ n ih =>
    rw [argmax]
    by_cases hjn : j = n
    · subst hjn
      have hlt : ∀ m, m ≤ j → 0 < m → argmax f m < m := by
        intro m _ hm
        induction m with
        | zero => omega
        | succ m ihm =>
          rw [argmax]
          split
          · omega
          · by_cases h0 : m = 0
            · subst h0; simp [argmax]
            · have := ihm (by omega) (by omega)
              omega
      by_cases h0 : j = 0
      · subst h0; simp [argmax]
      · have := hlt j le_rfl (by omega)
        rw [if_pos (h _ (by omega) (by omega))]
    · have hjn' : j < n := by omega
      rw [ih hjn' fun k hk => h k (by omega), if_neg (not_lt.mpr (h n (by omega) (by omega)).le)]

theorem argmax_lt (f : ℕ → ℝ) (n : ℕ) (hn : 0 < n) : argmax f n < n := by
  induction n with
  | zero => omega
  | succ n ih =>
    rw [argmax]
    split
    · omega
    · by_cases h0 : n = 0
      · subst h0; simp [argmax]
      · have := ih (by omega)
        omega

/-- Sums of numbers of magnitude one, not all of them one, one of them one. -/
theorem norm_sum_lt (z : ℕ → ℂ) (N m : ℕ) (hz : ∀ n, ‖z n‖ = 1) (h0 : z 0 = 1) (hm : m < N) (hne : z m ≠ 1) :
    ‖∑ n ∈ Finset.range N, z n‖ < N := by
  have hm0 : m ≠ 0 := by rintro rfl; exact hne h0
  have h2 : ‖1 + z m‖ < 2 := by
    have hsq : ‖1 + z m‖ ^ 2 < 2 ^ 2 := by
      have hn := hz m
      rw [← Complex.normSq_eq_norm_sq, Complex.normSq_apply]
      have h1 : (z m).re * (z m).re + (z m).im * (z m).im = 1 := by
        rw [← Complex.normSq_apply, Complex.normSq_eq_norm_sq, hn]; norm_num
      have hre : (z m).re < 1 := by
        rcases lt_or_ge (z m).re 1 with h | h
        · exact h
        · exfalso
          have him : (z m).im * (z m).im = 0 := by nlinarith [mul_self_nonneg (z m).im]
          have him' : (z m).im = 0 := mul_self_eq_zero.mp him
          have hre1 : (z m).re = 1 := by nlinarith
          exact hne (Complex.ext (by simpa using hre1) (by simpa using him'))
      simp only [Complex.add_re, Complex.one_re, Complex.add_im, Complex.one_im, zero_add]
      nlinarith
    exact lt_of_pow_lt_pow_left₀ 2 (by norm_num) hsq
  have h0N : 0 ∈ Finset.range N := Finset.mem_range.mpr (by omega)
  have hmN : m ∈ (Finset.range N).erase 0 := Finset.mem_erase.mpr ⟨hm0, Finset.mem_range.mpr hm⟩
  rw [← Finset.add_sum_erase _ _ h0N, ← Finset.add_sum_erase _ _ hmN, ← add_assoc, h0]
  have hrest : ‖∑ n ∈ ((Finset.range N).erase 0).erase m, z n‖ ≤ (N - 2 : ℕ) := by
    refine (norm_sum_le _ _).trans ?_
    simp only [hz, Finset.sum_const, nsmul_eq_mul, mul_one]
    rw [Finset.card_erase_of_mem hmN, Finset.card_erase_of_mem h0N, Finset.card_range, Nat.sub_sub]
  have hN : ((N - 2 : ℕ) : ℝ) = N - 2 := by
    rw [Nat.cast_sub (by omega)]; norm_num
  calc _ ≤ ‖1 + z m‖ + ‖∑ n ∈ ((Finset.range N).erase 0).erase m, z n‖ := norm_add_le _ _
    _ < 2 + (N - 2) := by rw [hN] at hrest; linarith
    _ = N := by ring

theorem proto_eq (w : Waveform σ) (B : ℚ) (os i j n : ℕ) :
    w.proto B os i n = w.proto B os j n ↔ ∃ k : ℤ, w.phase B os i n = w.phase B os j n + k := by
  unfold Waveform.proto
  rw [Complex.exp_eq_exp_iff_exists_int]
  have hpi : (Real.pi : ℂ) ≠ 0 := by exact_mod_cast Real.pi_ne_zero
  constructor
  · rintro ⟨k, hk⟩
    refine ⟨k, ?_⟩
    have h2 : ((w.phase B os i n : ℝ) : ℂ) = ((w.phase B os j n : ℝ) : ℂ) + k := by
      have : (2 * Real.pi * Complex.I) * ((w.phase B os i n : ℝ) : ℂ) =
          (2 * Real.pi * Complex.I) * (((w.phase B os j n : ℝ) : ℂ) + k) := by
        push_cast at hk ⊢
        linear_combination hk
      exact mul_left_cancel₀ (mul_ne_zero (mul_ne_zero two_ne_zero hpi) Complex.I_ne_zero) this
    exact_mod_cast h2
  · rintro ⟨k, hk⟩
    refine ⟨k, ?_⟩
    rw [hk]
    push_cast
    ring

/-- Chirps of different symbols differ in one of their first four samples. -/
theorem proto_differ (w : Waveform σ) (B : ℚ) (os : ℕ) (hB : 0 < B) (hos : 0 < os) (hT : 0 < w.duration) (M : ℕ)
    (hΔ : 0 < w.delta B) (hM : (M - 1 : ℚ) * w.delta B < B) (i j : ℕ) (hij : j < i) (hi : i < M) :
    ∃ n, n < 4 ∧ w.proto B os i n ≠ w.proto B os j n := by
  by_contra hcon
  push Not at hcon
  have hosq : (1 : ℚ) ≤ os := by exact_mod_cast hos
  have hsr : (0 : ℚ) < os * B := by positivity
  set α : ℚ := (i - j : ℚ) * w.delta B with hα
  have hij' : (j : ℚ) + 1 ≤ i := by exact_mod_cast hij
  have hiM : (i : ℚ) + 1 ≤ M := by exact_mod_cast hi
  have hα0 : 0 < α := mul_pos (by linarith) hΔ
  have hj0 : (0 : ℚ) ≤ j := Nat.cast_nonneg j
  have hαB : α < B := by
    refine lt_of_le_of_lt ?_ hM
    exact mul_le_mul_of_nonneg_right (by linarith) hΔ.le
  have hiB : (i : ℚ) * w.delta B < B := lt_of_le_of_lt (mul_le_mul_of_nonneg_right (by linarith) hΔ.le) hM
  -- unwrapped frequencies
  set u : ℕ → ℚ := fun n => n / (os * B) * (B / w.duration) with hu
  have umono : ∀ n, u n ≤ u (n + 1) := by
    intro n
    simp only [hu]
    apply mul_le_mul_of_nonneg_right _ (by positivity)
    gcongr
    simp
  have u0 : u 0 = 0 := by simp [hu]
  set e : ℕ → ℚ := fun n => (if u n + i * w.delta B > B then 1 else 0) - (if u n + j * w.delta B > B then 1 else 0) with he
  have hfreq : ∀ n, w.freq B os i n - w.freq B os j n = α - B * e n := by
    intro n
    have hw : ∀ k : ℕ, w.freq B os k n = u n + k * w.delta B - 1 / 2 * B - B * (if u n + k * w.delta B > B then 1 else 0) := by
      intro k
      unfold Waveform.freq
      by_cases h : u n + k * w.delta B > B
      · rw [if_pos h]
        have h' : (n : ℚ) / (os * B) * (B / w.duration) + (-(1 / 2) * B + k * w.delta B) > 1 / 2 * B := by
          have : u n = (n : ℚ) / (os * B) * (B / w.duration) := rfl
          rw [← this]; linarith
        simp only [h', if_true]
        simp only [hu]
        ring
      · rw [if_neg h]
        have h' : ¬ (n : ℚ) / (os * B) * (B / w.duration) + (-(1 / 2) * B + k * w.delta B) > 1 / 2 * B := by
          have : u n = (n : ℚ) / (os * B) * (B / w.duration) := rfl
          rw [← this]; intro h2; apply h; linarith
        simp only [h', if_false]
        simp only [hu]
        ring
    rw [hw i, hw j]
    simp only [he, hα]
    ring
  -- increments
  have hinc : ∀ n, n + 1 < 4 → ∃ k : ℤ, (2 * α - B * (e n + e (n + 1))) = 2 * (os * B) * k := by
    intro n hn
    obtain ⟨k1, h1⟩ := (proto_eq w B os i j n).mp (hcon n (by omega))
    obtain ⟨k2, h2⟩ := (proto_eq w B os i j (n + 1)).mp (hcon (n + 1) hn)
    refine ⟨k2 - k1, ?_⟩
    unfold Waveform.phase at h1 h2
    rw [Finset.sum_range_succ, Finset.sum_range_succ] at h2
    have h3 : (w.freq B os i n + w.freq B os i (n + 1)) / 2 * (1 / (os * B)) -
        (w.freq B os j n + w.freq B os j (n + 1)) / 2 * (1 / (os * B)) = k2 - k1 := by linarith
    have h4 : (w.freq B os i n - w.freq B os j n) + (w.freq B os i (n + 1) - w.freq B os j (n + 1)) = 2 * (os * B) * (k2 - k1) := by
      field_simp at h3
      linarith
    rw [hfreq, hfreq] at h4
    push_cast
    linarith
  have hone : ∀ n, n + 1 < 4 → e n + e (n + 1) = 1 := by
    intro n hn
    obtain ⟨k, hk⟩ := hinc n hn
    have hval : ∀ n, e n = 0 ∨ e n = 1 := by
      intro n
      simp only [he]
      by_cases h1 : u n + i * w.delta B > B
      · by_cases h2 : u n + j * w.delta B > B <;> simp [h1, h2]
      · have h2 : ¬ u n + j * w.delta B > B := by
          intro h2; apply h1
          have : (j : ℚ) * w.delta B ≤ i * w.delta B := mul_le_mul_of_nonneg_right (by linarith) hΔ.le
          linarith
        simp [h1, h2]
    have hbig : (B : ℚ) ≤ os * B := by nlinarith
    rcases hval n with a | a <;> rcases hval (n + 1) with b | b <;> rw [a, b] at hk ⊢
    · exfalso
      have hk0 : (0 : ℚ) < k := by
        by_contra h
        push Not at h
        nlinarith
      have hk1 : (k : ℚ) < 1 := by
        by_contra h
        push Not at h
        nlinarith
      have a1 : (0 : ℤ) < k := by exact_mod_cast hk0
      have a2 : k < (1 : ℤ) := by exact_mod_cast hk1
      omega
    · norm_num
    · norm_num
    · exfalso
      have hk0 : (k : ℚ) < 0 := by
        by_contra h
        push Not at h
        nlinarith
      have hk1 : (-1 : ℚ) < k := by
        by_contra h
        push Not at h
        nlinarith
      have a1 : k < (0 : ℤ) := by exact_mod_cast hk0
      have a2 : (-1 : ℤ) < k := by exact_mod_cast hk1
      omega
  have e0 : e 0 = 0 := by
    have h1 : ¬ u 0 + i * w.delta B > B := by rw [u0]; linarith
    have h2 : ¬ u 0 + j * w.delta B > B := by
      rw [u0]
      have : (j : ℚ) * w.delta B ≤ i * w.delta B := mul_le_mul_of_nonneg_right (by linarith) hΔ.le
      linarith
    simp only [he]
    rw [if_neg h1, if_neg h2]; norm_num
  have e1 : e 1 = 1 := by have := hone 0 (by norm_num); rw [e0] at this; linarith
  have e2 : e 2 = 0 := by have := hone 1 (by norm_num); rw [e1] at this; linarith
  have e3 : e 3 = 1 := by have := hone 2 (by norm_num); rw [e2] at this; linarith
  have hi1 : u 1 + i * w.delta B > B := by
    by_contra h
    simp only [he, h, if_false] at e1
    split at e1 <;> norm_num at e1
  have hi2 : u 2 + i * w.delta B > B := lt_of_lt_of_le hi1 (by have := umono 1; norm_num at this; linarith)
  have hj2 : u 2 + j * w.delta B > B := by
    by_contra h
    simp only [he, h, hi2, if_true, if_false] at e2
    norm_num at e2
  have hj3 : u 3 + j * w.delta B > B := lt_of_lt_of_le hj2 (by have := umono 2; norm_num at this; linarith)
  simp only [he, hj3, if_true] at e3
  split at e3 <;> norm_num at e3

/-- Correlation of a chirp with itself and with others. -/
theorem metric_lt (w : Waveform σ) (B : ℚ) (os : ℕ) (hB : 0 < B) (hos : 0 < os) (hT : 0 < w.duration) (hN : 4 ≤ w.perChirp B os)
    (M : ℕ) (hΔ : 0 < w.delta B) (hM : (M - 1 : ℚ) * w.delta B < B) (s k : ℕ) (hs : s < M) (hk : k < M) (hne : k ≠ s) :
    ‖∑ n ∈ Finset.range (w.perChirp B os), w.proto B os s n * (starRingEnd ℂ) (w.proto B os k n)‖ < w.perChirp B os := by
  have hd : ∃ n, n < 4 ∧ w.proto B os s n ≠ w.proto B os k n := by
    rcases lt_or_gt_of_ne hne with h | h
    · exact proto_differ w B os hB hos hT M hΔ hM s k h hs
    · obtain ⟨n, h1, h2⟩ := proto_differ w B os hB hos hT M hΔ hM k s h hk
      exact ⟨n, h1, h2.symm⟩
  obtain ⟨n, hn, hd⟩ := hd
  refine norm_sum_lt _ _ n (fun n => ?_) ?_ (by omega) ?_
  · rw [norm_mul, RCLike.norm_conj, norm_proto, norm_proto, one_mul]
  · rw [proto_zero, proto_zero, map_one, one_mul]
  · intro h
    apply hd
    have hkk : (starRingEnd ℂ) (w.proto B os k n) * w.proto B os k n = 1 := by
      rw [mul_comm, Complex.mul_conj, Complex.normSq_eq_norm_sq, norm_proto]; norm_num
    calc w.proto B os s n = w.proto B os s n * ((starRingEnd ℂ) (w.proto B os k n) * w.proto B os k n) := by rw [hkk, mul_one]
      _ = w.proto B os k n := by rw [← mul_assoc, h, one_mul]

/-- A row of a frame: a chirp times a gain. -/
theorem row_metric (w : Waveform σ) (B : ℚ) (os : ℕ) (g : ℂ) (s k : ℕ) :
    ‖∑ n ∈ Finset.range (w.perChirp B os), ((w.chirp B os s).map (g * ·)).getD n 0 * (starRingEnd ℂ) (w.proto B os k n)‖ =
      ‖g‖ * ‖∑ n ∈ Finset.range (w.perChirp B os), w.proto B os s n * (starRingEnd ℂ) (w.proto B os k n)‖ := by
  rw [← norm_mul, Finset.mul_sum]
  congr 1
  apply Finset.sum_congr rfl
  intro n hn
  have hn' := Finset.mem_range.mp hn
  have : ((w.chirp B os s).map (g * ·)).getD n 0 = g * w.proto B os s n := by
    simp [Waveform.chirp, List.getD_eq_getElem?_getD, hn']
  rw [this, mul_assoc]

theorem map_flatten_mul (g : ℂ) (xs : List (List ℂ)) : xs.flatten.map (g * ·) = (xs.map fun x => x.map (g * ·)).flatten := by
  rw [List.map_flatten]

/-- What is demodulated of a frame times a gain. -/
theorem demodulate_frame (w : Waveform σ) (hd : w.duration ≠ 0) (mem : ℕ → ℂ) (B : ℚ) (os : ℕ) (hN : 0 < w.perChirp B os)
    (symbols : List ℕ) (hs : ∀ s ∈ symbols, s < 2 ^ w.bps) (hl : symbols.length = w.data) (g : ℂ) (x : List ℂ)
    (hx : w.modulate mem symbols B os = .ok x) :
    w.demodulate (x.map (g * ·)) B os = .ok (symbols.map fun s => argmax (fun k =>
      ‖g‖ * ‖∑ n ∈ Finset.range (w.perChirp B os), w.proto B os s n * (starRingEnd ℂ) (w.proto B os k n)‖) (2 ^ w.bps)) := by
  obtain ⟨pilot, guard, -, hpl, -, hm, -⟩ := C89_frame w hd mem B os symbols hs hl
  have hxe := Except.ok.inj (hx.symm.trans hm)
  subst hxe
  have hcl := chirps_length w B os symbols
  unfold Waveform.demodulate
  rw [if_neg hd]
  have hsl : pySlice ((pilot ++ (symbols.map (w.chirp B os)).flatten ++ guard).map (g * ·)) (w.perChirp B os * w.pilots : ℕ)
      (w.perChirp B os * w.pilots + w.perChirp B os * w.data : ℕ) =
      ((symbols.map (w.chirp B os)).map fun x => x.map (g * ·)).flatten := by
    rw [Verif.Modem.pySlice_nat _ _ _ (by simp only [List.length_map, List.length_append, hpl, hcl, hl]; omega)]
    simp only [List.map_append, List.append_assoc]
    rw [List.drop_append_of_le_length (by simp [hpl]), List.drop_eq_nil_of_le (by simp [hpl]), List.nil_append,
      Nat.add_sub_cancel_left, List.take_append_of_le_length (by rw [List.length_map, hcl, hl]), List.take_of_length_le
      (by rw [List.length_map, hcl, hl]), map_flatten_mul]
  simp only [hsl]
  have hlen : ((symbols.map (w.chirp B os)).map fun x => x.map (g * ·)).flatten.length = w.perChirp B os * symbols.length := by
    rw [← map_flatten_mul, List.length_map, hcl]
  rw [if_neg (by rw [hlen, Nat.mul_mod_right]; omega)]
  rw [rows_flatten _ hN _ (by
    intro y hy
    obtain ⟨z, hz, rfl⟩ := List.mem_map.mp hy
    obtain ⟨s, -, rfl⟩ := List.mem_map.mp hz
    rw [List.length_map, chirp_length])]
  rw [List.map_map, List.map_map]
  congr 1
  apply List.map_congr_left
  intro s _
  simp only [Function.comp]
  congr 1
  funext k
  exact row_metric w B os g s k

/-- C89 for chirps of at least four samples and frequency differences which keep the symbols within the bandwidth: whatever
the gain of the channel and whatever memory contains, demodulating a modulated frame yields its symbols.  Missing for the full
claim: shorter chirps, see `C89_short_fails` and `C89_three_fails`, and other frequency differences, see `C89_alias_fails`. -/
theorem C89_symbols_partial (w : Waveform σ) (mem : ℕ → ℂ) (B : ℚ) (os : ℕ) (hB : 0 < B) (hos : 0 < os) (hT : 0 < w.duration)
    (hN : 4 ≤ w.perChirp B os) (hΔ : 0 < w.delta B) (hM : (2 ^ w.bps - 1 : ℚ) * w.delta B < B) (symbols : List ℕ)
    (hs : ∀ s ∈ symbols, s < 2 ^ w.bps) (hl : symbols.length = w.data) (g : ℂ) (hg : g ≠ 0) :
    ∃ x, w.modulate mem symbols B os = .ok x ∧ x.length = w.perFrame B os ∧ w.demodulate (x.map (g * ·)) B os = .ok symbols := by
  obtain ⟨pilot, guard, -, hpl, hgl, hm, -⟩ := C89_frame w hT.ne' mem B os symbols hs hl
  refine ⟨_, hm, ?_, ?_⟩
  · rw [List.length_append, List.length_append, hpl, hgl, chirps_length, hl, Waveform.perFrame]; ring
  · rw [demodulate_frame w hT.ne' mem B os (by omega) symbols hs hl g _ hm]
    congr 1
    conv_rhs => rw [← List.map_id symbols]
    apply List.map_congr_left
    intro s hsm
    have hs' := hs s hsm
    apply argmax_spec _ _ _ hs'
    intro k hk hne
    apply mul_lt_mul_of_pos_left _ (norm_pos_iff.mpr hg)
    refine lt_of_lt_of_eq (metric_lt w B os hB hos hT hN (2 ^ w.bps) hΔ (by exact_mod_cast hM) s k hs' hk hne) ?_
    have : ∀ n, w.proto B os s n * (starRingEnd ℂ) (w.proto B os s n) = 1 := by
      intro n
      rw [Complex.mul_conj, Complex.normSq_eq_norm_sq, norm_proto]; norm_num
    simp [this]

/-- C89 with the derived frequency difference, the default: bits are recovered of the frame they are modulated to, whatever
the gain.  Missing for the full claim: chirps of less than four samples, see `C89_short_fails` and `C89_three_fails`. -/
theorem C89_derived_partial (w : Waveform σ) (hw : w.order = 2 ^ w.bps) (hw0 : 0 < w.bps) (hdiff : w.diff = 0) (mem : ℕ → ℂ) (B : ℚ)
    (os : ℕ) (hB : 0 < B) (hos : 0 < os) (hT : 0 < w.duration) (hN : 4 ≤ w.perChirp B os) (bits : List ℕ)
    (hb : ∀ b ∈ bits, b < 2) (hl : bits.length = w.data * w.bps) (g : ℂ) (hg : g ≠ 0) :
    ∃ s x, w.map bits = .ok s ∧ w.modulate mem s B os = .ok x ∧ w.demodulate (x.map (g * ·)) B os = .ok s ∧ w.unmap s = .ok bits := by
  obtain ⟨s, h1, h2, h3, h4⟩ := C89_bits w hw0 bits hb (by rw [hl]; exact Nat.mul_mod_left _ _)
  have hlen : s.length = w.data := Nat.eq_of_mul_eq_mul_right hw0 (h2.trans hl)
  have hδ : w.delta B = B / 2 ^ w.bps := by
    unfold Waveform.delta
    rw [if_pos hdiff, hw]
    push_cast
    rfl
  have hpos : (0 : ℚ) < 2 ^ w.bps := by positivity
  obtain ⟨x, h5, -, h6⟩ := C89_symbols_partial w mem B os hB hos hT hN (by rw [hδ]; positivity)
    (by rw [hδ, mul_div_assoc', div_lt_iff₀ hpos]; nlinarith) s h3 hlen g hg
  exact ⟨s, x, h1, h5, h6, h4⟩

/-- C89: without noise but whatever the signal, demodulated symbols can be mapped to bits. -/
theorem C89_range (w : Waveform σ) (signal : List ℂ) (B : ℚ) (os : ℕ) (s : List ℕ) (h : w.demodulate signal B os = .ok s) :
    ∀ x ∈ s, x < 2 ^ w.bps := by
  unfold Waveform.demodulate at h
  split at h
  · cases h
  · simp only at h
    split at h
    · cases h
    · cases h
      intro x hx
      obtain ⟨y, -, rfl⟩ := List.mem_map.mp hx
      exact argmax_lt _ _ (by positivity)

/-- C89: if chirps and guard intervals last whole numbers of samples, frames last as long as their samples. -/
theorem C89_duration_partial (w : Waveform σ) (B : ℚ) (os : ℕ) (a b : ℕ) (ha : w.duration * B * os = a) (hb : w.guard * B * os = b) :
    (w.perFrame B os : ℚ) = w.frameDuration * (B * os) := by
  have hr : pyRound (b : ℚ) = b := by simp [pyRound]
  unfold Waveform.perFrame Waveform.perChirp Waveform.frameDuration
  rw [ha, hb, hr]
  simp only [Int.ceil_natCast, Int.toNat_natCast]
  push_cast
  rw [← ha, ← hb]
  ring

/-- C89 fails for durations of frames of other chirps: without a guard interval, frames have more samples than they last. -/
theorem C89_duration_fails (w : Waveform σ) (B : ℚ) (os : ℕ) (h0 : 0 < w.duration * B * os) (hn : ∀ a : ℕ, w.duration * B * os ≠ a)
    (hg : w.guard = 0) (hc : 0 < w.pilots + w.data) : w.frameDuration * (B * os) < (w.perFrame B os : ℚ) := by
  have hr : pyRound (0 : ℚ) = 0 := by simp [pyRound]
  unfold Waveform.perFrame Waveform.perChirp Waveform.frameDuration
  rw [hg, zero_mul, zero_mul, hr]
  have h1 : w.duration * B * os < (⌈w.duration * B * os⌉.toNat : ℕ) := by
    have h2 := Int.le_ceil (w.duration * B * os)
    have h3 : (0 : ℤ) ≤ ⌈w.duration * B * os⌉ := by
      have : (0 : ℚ) ≤ ⌈w.duration * B * os⌉ := h0.le.trans h2
      exact_mod_cast this
    have h4 : ((⌈w.duration * B * os⌉.toNat : ℕ) : ℚ) = (⌈w.duration * B * os⌉ : ℤ) := by
      have : ((⌈w.duration * B * os⌉.toNat : ℕ) : ℤ) = ⌈w.duration * B * os⌉ := Int.toNat_of_nonneg h3
      exact_mod_cast this
    rw [h4]
    refine lt_of_le_of_ne h2 fun h => ?_
    exact hn ⌈w.duration * B * os⌉.toNat (h.trans h4.symm)
  push_cast
  have hc' : (0 : ℚ) < w.pilots + w.data := by exact_mod_cast hc
  simp only [add_zero]
  nlinarith

/-! ### What is false -/

/-- C89 fails for chirps shorter than a sample, such as the default ones of 10 ns at sampling rates of at most 100 MHz: all
symbols are demodulated as zero. -/
theorem C89_short_fails (w : Waveform σ) (mem : ℕ → ℂ) (B : ℚ) (os : ℕ) (hB : 0 < B) (hos : 0 < os) (hT : 0 < w.duration)
    (h1 : w.duration * B * os ≤ 1) (symbols : List ℕ) (hs : ∀ s ∈ symbols, s < 2 ^ w.bps) (hl : symbols.length = w.data) (g : ℂ) :
    ∃ x, w.modulate mem symbols B os = .ok x ∧ w.demodulate (x.map (g * ·)) B os = .ok (List.replicate w.data 0) := by
  have hosq : (0 : ℚ) < os := by exact_mod_cast hos
  have hN : w.perChirp B os = 1 := by
    have : ⌈w.duration * B * os⌉ = 1 := by
      rw [Int.ceil_eq_iff]
      refine ⟨?_, by simpa using h1⟩
      have : 0 < w.duration * B * os := by positivity
      simpa using this
    unfold Waveform.perChirp
    rw [this]; rfl
  obtain ⟨pilot, guard, -, hpl, hgl, hm, -⟩ := C89_frame w hT.ne' mem B os symbols hs hl
  refine ⟨_, hm, ?_⟩
  rw [demodulate_frame w hT.ne' mem B os (by omega) symbols hs hl g _ hm]
  congr 1
  have harg : ∀ (c : ℝ) (n : ℕ), argmax (fun _ => c) n = 0 := by
    intro c n
    induction n with
    | zero => rfl
    | succ n ih => rw [argmax, if_neg (lt_irrefl _), ih]
  rw [← hl, List.eq_replicate_iff]
  refine ⟨by simp, fun b hb => ?_⟩
  obtain ⟨s, -, rfl⟩ := List.mem_map.mp hb
  rw [hN]
  simp only [Finset.sum_range_one, proto_zero]
  exact harg _ _

/-- Chirps which do not differ: the later symbol is never demodulated. -/
theorem demodulate_twin (w : Waveform σ) (hd : w.duration ≠ 0) (mem : ℕ → ℂ) (B : ℚ) (os : ℕ) (hN : 0 < w.perChirp B os) (i j : ℕ)
    (hij : i < j) (hj : j < 2 ^ w.bps) (he : ∀ n < w.perChirp B os, w.proto B os i n = w.proto B os j n)
    (hl : w.data = 1) : ∃ x, w.modulate mem [j] B os = .ok x ∧ w.demodulate x B os ≠ .ok [j] := by
  obtain ⟨pilot, guard, -, hpl, hgl, hm, -⟩ := C89_frame w hd mem B os [j] (by simpa using hj) (by simp [hl])
  refine ⟨_, hm, fun h => ?_⟩
  have hone := demodulate_frame w hd mem B os hN [j] (by simpa using hj) (by simp [hl]) 1 _ hm
  simp only [one_mul, List.map_id'] at hone
  rw [hone] at h
  simp only [Except.ok.injEq, List.map_cons, List.map_nil, List.cons.injEq, and_true] at h
  have hlt : ∀ (f : ℕ → ℝ) (n : ℕ), f i = f j → argmax f n ≠ j := by
    intro f n hf
    have key : ∀ n, argmax f n ≠ j ∧ (i < n → f i ≤ f (argmax f n)) := by
      intro n
      induction n with
      | zero => exact ⟨by simp only [argmax]; omega, by omega⟩
      | succ n ih =>
        rw [argmax]
        split
        · rename_i hgt
          refine ⟨?_, ?_⟩
          · rintro rfl
            have := ih.2 hij
            rw [hf] at this
            exact absurd hgt (not_lt.mpr this)
          · intro hi
            rcases Nat.lt_succ_iff_lt_or_eq.mp hi with h | h
            · exact (ih.2 h).trans hgt.le
            · rw [h]
        · rename_i hle
          refine ⟨ih.1, fun hi => ?_⟩
          rcases Nat.lt_succ_iff_lt_or_eq.mp hi with h | h
          · exact ih.2 h
          · rw [h]; exact not_lt.mp hle
    exact (key n).1
  refine hlt _ _ ?_ h
  rw [Finset.sum_congr rfl fun n hn => by rw [he n (Finset.mem_range.mp hn)]]

/-- C89 fails for three samples per chirp: of four symbols at 2.5 periods of the bandwidth, the second and the last one have
the same chirp. -/
theorem C89_three_fails (sync : σ) (mem : ℕ → ℂ) :
    ∃ w : Waveform σ, w = ⟨4, 5 / 2, 0, 0, 1, 0, sync⟩ ∧ w.perChirp 1 1 = 3 ∧
      ∃ x, w.modulate mem [3] 1 1 = .ok x ∧ w.demodulate x 1 1 ≠ .ok [3] := by
  refine ⟨_, rfl, ?_, ?_⟩
  · norm_num [Waveform.perChirp]; rfl
  · have hN : (⟨4, 5 / 2, 0, 0, 1, 0, sync⟩ : Waveform σ).perChirp 1 1 = 3 := by norm_num [Waveform.perChirp]; rfl
    have hb : (⟨4, 5 / 2, 0, 0, 1, 0, sync⟩ : Waveform σ).bps = 2 := by
      show Nat.log2 4 = 2
      decide +kernel
    refine demodulate_twin _ (by norm_num) mem 1 1 (by rw [hN]; norm_num) 1 3 (by norm_num) (by rw [hb]; norm_num) ?_ rfl
    rw [hN]
    intro n hn
    rw [proto_eq]
    refine ⟨0, ?_⟩
    interval_cases n <;> norm_num [Waveform.phase, Finset.sum_range_succ, Waveform.freq, Waveform.delta]

/-- C89 fails for frequency differences of the sampling rate and the bandwidth together, which are accepted: the first two
symbols have the same chirp, however many samples it has. -/
theorem C89_alias_fails (w : Waveform σ) (mem : ℕ → ℂ) (B : ℚ) (os : ℕ) (hB : 0 < B) (hos : 0 < os) (hT : 0 < w.duration)
    (hdiff : w.diff = (os + 1) * B) (hw : 0 < w.bps) (hl : w.data = 1) (hN : 0 < w.perChirp B os) :
    ∃ x, w.modulate mem [1] B os = .ok x ∧ w.demodulate x B os ≠ .ok [1] := by
  have hosq : (1 : ℚ) ≤ os := by exact_mod_cast hos
  have h2 : 1 < 2 ^ w.bps := Nat.one_lt_two_pow (by omega)
  have hδ : w.delta B = (os + 1) * B := by
    unfold Waveform.delta
    rw [if_neg (by rw [hdiff]; positivity), hdiff]
  refine demodulate_twin w hT.ne' mem B os hN 0 1 (by norm_num) h2 (fun n hn => ?_) hl
  -- all samples of a chirp lie within its duration
  have hu : ∀ m : ℕ, m < w.perChirp B os → (m : ℚ) / (os * B) * (B / w.duration) < B := by
    intro m hm
    have hpos : 0 < w.duration * B * os := by positivity
    have h1 : (m : ℚ) < w.duration * B * os := by
      unfold Waveform.perChirp at hm
      have h3 : (m : ℤ) < ⌈w.duration * B * os⌉ := by omega
      have := Int.lt_ceil.mp h3
      exact_mod_cast this
    rw [div_mul_div_comm, div_lt_iff₀ (by positivity)]
    nlinarith
  have hf : ∀ m : ℕ, m < w.perChirp B os → w.freq B os 1 m = w.freq B os 0 m + os * B := by
    intro m hm
    have h3 := hu m hm
    have h4 : (0 : ℚ) ≤ (m : ℚ) / (os * B) * (B / w.duration) := by positivity
    unfold Waveform.freq
    rw [hδ]
    have a1 : (m : ℚ) / (os * B) * (B / w.duration) + (-(1 / 2) * B + (1 : ℕ) * ((os + 1) * B)) > 1 / 2 * B := by
      push_cast
      nlinarith
    have a0 : ¬ (m : ℚ) / (os * B) * (B / w.duration) + (-(1 / 2) * B + (0 : ℕ) * ((os + 1) * B)) > 1 / 2 * B := by
      push_cast
      intro h
      linarith
    simp only [a1, a0, if_true, if_false]
    push_cast
    ring
  rw [proto_eq]
  refine ⟨-n, ?_⟩
  have key : ∀ k, k < w.perChirp B os → w.phase B os 1 k = w.phase B os 0 k + k := by
    intro k
    induction k with
    | zero => intro _; simp [Waveform.phase]
    | succ k ih =>
      intro hk
      have := ih (by omega)
      unfold Waveform.phase at this ⊢
      rw [Finset.sum_range_succ, Finset.sum_range_succ, this, hf k (by omega), hf (k + 1) hk]
      have hne : (os : ℚ) * B ≠ 0 := by positivity
      push_cast
      field_simp
      ring
  rw [key n hn]
  push_cast
  ring

/-- C89 fails for guard intervals: their samples are never assigned, and contain what happened to be in memory. -/
theorem C89_guard_fails (w : Waveform σ) (hd : w.duration ≠ 0) (mem : ℕ → ℂ) (B : ℚ) (os : ℕ) (symbols : List ℕ)
    (hs : ∀ s ∈ symbols, s < 2 ^ w.bps) (hl : symbols.length = w.data) :
    ∃ x, w.modulate mem symbols B os = .ok x ∧
      ∀ n, w.perChirp B os * (w.pilots + w.data) ≤ n → n < w.perFrame B os → x[n]? = some (mem n) := by
  obtain ⟨pilot, guard, -, hpl, -, hm, hgu⟩ := C89_frame w hd mem B os symbols hs hl
  refine ⟨_, hm, fun n h1 h2 => ?_⟩
  have hlen : (pilot ++ (symbols.map (w.chirp B os)).flatten).length = w.perChirp B os * (w.pilots + w.data) := by
    rw [List.length_append, hpl, chirps_length, hl]; ring
  rw [List.getElem?_append_right (by rw [hlen]; exact h1), hlen, hgu, List.getElem?_drop, Nat.add_sub_cancel' h1]
  simp [h2]

/-- C89 fails for chirps without duration, which are documented to be refused: they are accepted, but every modulation raises
a `ZeroDivisionError`. -/
theorem C89_zero_fails (standard : σ) (order : ℤ) (h0 : 0 < order) (hp : order.toNat &&& (order.toNat - 1) = 0) (diff : ℚ) (hd : 0 ≤ diff)
    (pilots data : ℕ) (guard : ℚ) (hg : 0 ≤ guard) (sync : Option σ) :
    ∃ w, Waveform.new standard order 0 diff pilots data guard sync = .ok w ∧
      ∀ mem s B os, w.modulate mem s B os = .error .zeroDivision := by
  refine ⟨⟨order.toNat, 0, diff, pilots, data, guard, standard⟩, ?_, fun mem s B os => ?_⟩
  · unfold Waveform.new
    rw [if_neg (by push Not; exact ⟨h0, hp⟩), if_neg (lt_irrefl _), if_neg (not_lt.mpr hd), if_neg (by omega), if_neg (by omega),
      if_neg (not_lt.mpr hg)]
    rfl
  · simp [Waveform.modulate, Waveform.pilotSignal]

/-- C89 fails for a modulation order of one, which is accepted: not even an empty frame can be mapped. -/
theorem C89_order_one_fails (w : Waveform σ) (h : w.order = 1) (bits : List ℕ) : w.map bits = .error .value := by
  have : w.bps = 0 := by unfold Waveform.bps; rw [h]; decide +kernel
  simp [Waveform.map, this]

/-- C89 fails for synchronization routines: the one given to the constructor is replaced, and so is the one of a restored
waveform (lines 457-477), which is handed to the constructor as well. -/
theorem C89_sync_fails (standard : σ) (order : ℤ) (duration diff : ℚ) (pilots data : ℤ) (guard : ℚ) (sync : Option σ) (w : Waveform σ)
    (h : Waveform.new standard order duration diff pilots data guard sync = .ok w) : w.sync = standard := by
  unfold Waveform.new at h
  repeat' split at h
  all_goals first | cases h; rfl | cases h

/-! ### Examples -/

/-- 16 chirps of 10 samples, two pilots. -/
def demo : Waveform Unit := ⟨16, 10, 0, 2, 3, 1, ()⟩

example : demo.order = 2 ^ demo.bps ∧ 0 < demo.bps ∧ 4 ≤ demo.perChirp 1 1 := by
  refine ⟨by decide +kernel, by decide +kernel, ?_⟩
  norm_num [demo, Waveform.perChirp]

example : demo.map [0, 1, 1, 0, 1, 1, 1, 1, 0, 0, 0, 1] = .ok [6, 15, 1] := by decide +kernel

example : demo.unmap [6, 15, 1] = .ok [0, 1, 1, 0, 1, 1, 1, 1, 0, 0, 0, 1] := by decide +kernel

end Verif.ChirpFsk
