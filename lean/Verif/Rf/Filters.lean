import Verif.Rf.Signal
import Mathlib.Analysis.Complex.Basic
import Mathlib.Algebra.BigOperators.Fin
import Mathlib.Tactic.LinearCombination
import Mathlib.Tactic.FieldSimp

/-!
# C139: high-pass filters of radio-frequency chains

`hermespy/simulation/rf/blocks/filters.py` (`FilterRealization`, `Filter`, `HPF`).  Samples are complex, coefficients real numbers, exact.

`scipy.signal.filtfilt` is modelled as it is called (`padtype='odd'`, `method='pad'`, `padlen=None`): odd extension of both ends by three times
the number of coefficients, a pass of the direct form II transposed filter in either direction from the steady state (`lfilter_zi`) of the first
sample, removal of the extension.  The leading denominator coefficient is one, as `butter` returns it, so that nothing is normalised.
`scipy.signal.butter` is an oracle of which only the check of the cutoff frequency and what `Highpass` states are known.  The noise of the block is
added by `RFBlock.propagate` (`Verif.Rf.Sig.propagate`).
-/

namespace Verif.Rf.Filters

open Finset
open Verif (PyErr)
open Verif.Rf.Sig (RfSignal fromNDArray)

/-! ### `scipy.signal.filtfilt` -/

/-- Coefficients of a filter, `FilterRealization`, `filters.py` 24-62. -/
structure Coeffs where
  b : List ℝ
  a : List ℝ

/-- The `k`-th coefficient of the numerator; there are none behind the last. -/
noncomputable def Coeffs.num (c : Coeffs) (k : ℕ) : ℂ := ((c.b.getD k 0 : ℝ) : ℂ)

/-- The `k`-th coefficient of the denominator. -/
noncomputable def Coeffs.den (c : Coeffs) (k : ℕ) : ℂ := ((c.a.getD k 0 : ℝ) : ℂ)

/-- The larger number of coefficients, `max(len(a), len(b))`. -/
def Coeffs.taps (c : Coeffs) : ℕ := max c.b.length c.a.length

/-- State of the direct form II transposed filter before sample `n` of `x`, from state `z`. -/
noncomputable def state (c : Coeffs) (z x : ℕ → ℂ) : ℕ → ℕ → ℂ
  | 0 => z
  | n + 1 => fun i => c.num (i + 1) * x n + state c z x n (i + 1) - c.den (i + 1) * (c.num 0 * x n + state c z x n 0)

/-- `scipy.signal.lfilter(b, a, x, zi=z)`. -/
noncomputable def lfilter (c : Coeffs) (z x : ℕ → ℂ) (n : ℕ) : ℂ := c.num 0 * x n + state c z x n 0

/-- `scipy.signal.lfilter_zi(b, a)`: the first entry from the sums of the coefficients, the others from it. -/
noncomputable def steady (c : Coeffs) (i : ℕ) : ℂ :=
  let z0 := (∑ k ∈ range (c.taps - 1), (c.num (k + 1) - c.den (k + 1) * c.num 0)) / (1 + ∑ k ∈ range (c.taps - 1), c.den (k + 1))
  if i + 1 < c.taps then
    (1 + ∑ k ∈ range i, c.den (k + 1)) * z0 - ∑ k ∈ range i, (c.num (k + 1) - c.den (k + 1) * c.num 0)
  else 0

/-- `scipy.signal._arraytools.odd_ext(x, edge)` of `num` samples. -/
noncomputable def oddExt (edge num : ℕ) (x : ℕ → ℂ) (n : ℕ) : ℂ :=
  if n < edge then 2 * x 0 - x (edge - n)
  else if n < edge + num then x (n - edge)
  else 2 * x (num - 1) - x (num - 2 - (n - edge - num))

/-- `scipy.signal.filtfilt(b, a, x)` of `num` samples. -/
noncomputable def filtfilt (c : Coeffs) (num : ℕ) (x : ℕ → ℂ) : Except PyErr (ℕ → ℂ) :=
  let edge := 3 * c.taps
  if num ≤ edge then .error .value
  else
    let len := num + 2 * edge
    let e := oddExt edge num x
    let y := lfilter c (fun i => steady c i * e 0) e
    let w := lfilter c (fun i => steady c i * y (len - 1)) (fun n => y (len - 1 - n))
    .ok fun n => w (len - 1 - (n + edge))

/-- Rows of an array filtered one after another (`axis=1`). -/
noncomputable def filterRows (c : Coeffs) (num : ℕ) : List (List ℂ) → Except PyErr (List (List ℂ))
  | [] => .ok []
  | r :: rs =>
    match filtfilt c num (fun n => r.getD n 0), filterRows c num rs with
    | .ok y, .ok ys => .ok ((List.range num).map y :: ys)
    | .error e, _ => .error e
    | _, .error e => .error e

/-- `Filter._propagate`, `filters.py` 119-127. -/
noncomputable def filterPropagate (c : Coeffs) (s : RfSignal ℂ) : Except PyErr (RfSignal ℂ) :=
  match filterRows c s.samples s.rows with
  | .error e => .error e
  | .ok rows => fromNDArray rows s.samples s.rate (.array s.carriers) (.array s.noises) s.delay

/-! ### `HPF` -/

/-- The block's configuration, `filters.py` 130-199. -/
structure Hpf where
  cutoff : ℝ
  order : ℤ

/-- `cutoff_frequency`, `filters.py` 175-180. -/
noncomputable def Hpf.setCutoff (h : Hpf) (v : ℝ) : Except PyErr Hpf := if v ≤ 0 then .error .value else .ok { h with cutoff := v }

/-- `filter_order`, `filters.py` 194-199. -/
def Hpf.setOrder (h : Hpf) (v : ℤ) : Except PyErr Hpf := if v < 1 then .error .value else .ok { h with order := v }

/-- `HPF.__init__`, `filters.py` 135-163. -/
noncomputable def Hpf.new (cutoff : ℝ) (order : ℤ) : Except PyErr Hpf := do
  let h ← Hpf.setCutoff ⟨1, 1⟩ cutoff
  h.setOrder order

/-- Arrays of coefficients and which of them `_filter_coefficients` has cached for which arguments. -/
structure Mem where
  cache : ℝ × ℝ × ℤ → Option ℕ
  arrays : ℕ → Coeffs
  next : ℕ

/-- `_filter_coefficients`, `filters.py` 201-219, decorated with `functools.cache`; `butter` refuses cutoff frequencies outside of
`0 < Wn < fs / 2`.  Errors are not cached. -/
noncomputable def coefficients (butter : ℝ × ℝ × ℤ → Coeffs) (m : Mem) (key : ℝ × ℝ × ℤ) : Except PyErr (Mem × ℕ) :=
  match m.cache key with
  | some i => .ok (m, i)
  | none =>
    if key.1 ≤ 0 ∨ key.2.1 / 2 ≤ key.1 then .error .value
    else
      .ok (⟨fun k => if k = key then some m.next else m.cache k, fun i => if i = m.next then butter key else m.arrays i, m.next + 1⟩, m.next)

/-- `HPF.realize`, `filters.py` 221-234: the realization holds the cached arrays. -/
noncomputable def Hpf.realize (butter : ℝ × ℝ × ℤ → Coeffs) (h : Hpf) (m : Mem) (bandwidth : ℝ) (oversampling : ℕ) : Except PyErr (Mem × ℕ) :=
  coefficients butter m (h.cutoff, bandwidth * oversampling, h.order)

/-- What happens to the arrays: blocks are realized, and the arrays that realizations hand out (`numerator_coefficients`,
`denominator_coefficients`, `filters.py` 54-62) are written to. -/
inductive Op
  | realize (h : Hpf) (bandwidth : ℝ) (oversampling : ℕ)
  | write (i : ℕ) (c : Coeffs)

/-- One event. -/
noncomputable def step (butter : ℝ × ℝ × ℤ → Coeffs) (m : Mem) : Op → Mem
  | .realize h bw os =>
    match h.realize butter m bw os with
    | .ok r => r.1
    | .error _ => m
  | .write i c => { m with arrays := fun j => if j = i then c else m.arrays j }

/-- Before the first realization. -/
noncomputable def empty : Mem := ⟨fun _ => none, fun _ => ⟨[], []⟩, 0⟩

/-- What is known of the coefficients of a Butterworth high pass. -/
structure Highpass (order : ℕ) (c : Coeffs) : Prop where
  numb : c.b.length = order + 1
  numa : c.a.length = order + 1
  lead : c.den 0 = 1
  /-- the zeros are at frequency zero -/
  zero : ∑ k ∈ range (order + 1), c.num k = 0
  /-- the poles are not -/
  pole : ∑ k ∈ range (order + 1), c.den k ≠ 0

/-! ### Filters -/

theorem num_taps (c : Coeffs) (k : ℕ) (h : c.taps ≤ k) : c.num k = 0 := by
  unfold Coeffs.num
  rw [List.getD_eq_getElem?_getD, List.getElem?_eq_none (by unfold Coeffs.taps at h; omega)]
  simp

theorem den_taps (c : Coeffs) (k : ℕ) (h : c.taps ≤ k) : c.den k = 0 := by
  unfold Coeffs.den
  rw [List.getD_eq_getElem?_getD, List.getElem?_eq_none (by unfold Coeffs.taps at h; omega)]
  simp

/-- The state is what the past contributes. -/
theorem state_eq (c : Coeffs) (z x : ℕ → ℂ) (n : ℕ) : ∀ i, state c z x n i =
    z (i + n) + ∑ j ∈ range n, (c.num (i + j + 1) * x (n - 1 - j) - c.den (i + j + 1) * lfilter c z x (n - 1 - j)) := by
  induction n with
  | zero => intro i; simp [state]
  | succ n ih =>
    intro i
    rw [state, Finset.sum_range_succ']
    dsimp only
    rw [ih (i + 1)]
    have e : ∀ j ∈ range n, c.num (i + 1 + j + 1) * x (n - 1 - j) - c.den (i + 1 + j + 1) * lfilter c z x (n - 1 - j) =
        c.num (i + (j + 1) + 1) * x (n + 1 - 1 - (j + 1)) - c.den (i + (j + 1) + 1) * lfilter c z x (n + 1 - 1 - (j + 1)) := by
      intro j _
      rw [show i + 1 + j + 1 = i + (j + 1) + 1 by omega, show n + 1 - 1 - (j + 1) = n - 1 - j by omega]
    rw [Finset.sum_congr rfl e]
    simp only [Nat.add_sub_cancel, Nat.sub_zero, Nat.add_zero, lfilter]
    rw [show i + 1 + n = i + (n + 1) by omega]
    ring

/-- **Difference equation.** -/
theorem lfilter_eq (c : Coeffs) (z x : ℕ → ℂ) (n : ℕ) : lfilter c z x n = c.num 0 * x n + z n +
    ∑ j ∈ range n, (c.num (j + 1) * x (n - 1 - j) - c.den (j + 1) * lfilter c z x (n - 1 - j)) := by
  rw [lfilter, state_eq]
  simp only [Nat.zero_add]
  ring

/-- Sums over the past are sums over the coefficients. -/
theorem lfilter_taps (c : Coeffs) (z x : ℕ → ℂ) (n : ℕ) (hz : z n = 0) (hn : c.taps ≤ n + 1) (hl : c.den 0 = 1) (ht : 1 ≤ c.taps) :
    ∑ k ∈ range c.taps, c.den k * lfilter c z x (n - k) = ∑ k ∈ range c.taps, c.num k * x (n - k) := by
  have h := lfilter_eq c z x n
  rw [hz] at h
  have hs : ∑ j ∈ range n, (c.num (j + 1) * x (n - 1 - j) - c.den (j + 1) * lfilter c z x (n - 1 - j)) =
      ∑ j ∈ range (c.taps - 1), (c.num (j + 1) * x (n - 1 - j) - c.den (j + 1) * lfilter c z x (n - 1 - j)) := by
    symm
    apply Finset.sum_subset
    · intro j hj; rw [mem_range] at hj ⊢; omega
    · intro j _ hj
      rw [mem_range] at hj
      rw [num_taps c (j + 1) (by omega), den_taps c (j + 1) (by omega)]
      ring
  rw [hs] at h
  obtain ⟨m, hm⟩ : ∃ m, c.taps = m + 1 := ⟨c.taps - 1, by omega⟩
  rw [hm, Nat.add_sub_cancel, Finset.sum_sub_distrib] at h
  rw [hm, Finset.sum_range_succ', Finset.sum_range_succ', hl]
  have e1 : ∑ k ∈ range m, c.den (k + 1) * lfilter c z x (n - (k + 1)) = ∑ k ∈ range m, c.den (k + 1) * lfilter c z x (n - 1 - k) :=
    Finset.sum_congr rfl fun k _ => by rw [show n - (k + 1) = n - 1 - k by omega]
  have e2 : ∑ k ∈ range m, c.num (k + 1) * x (n - (k + 1)) = ∑ k ∈ range m, c.num (k + 1) * x (n - 1 - k) :=
    Finset.sum_congr rfl fun k _ => by rw [show n - (k + 1) = n - 1 - k by omega]
  rw [e1, e2, Nat.sub_zero]
  linear_combination h

/-- Filters are linear in the state and the samples together. -/
theorem state_linear (c : Coeffs) (s t : ℂ) (z z' x x' : ℕ → ℂ) (n : ℕ) : ∀ i,
    state c (fun i => s * z i + t * z' i) (fun n => s * x n + t * x' n) n i = s * state c z x n i + t * state c z' x' n i := by
  induction n with
  | zero => intro i; rfl
  | succ n ih =>
    intro i
    simp only [state]
    rw [ih, ih]
    ring

theorem lfilter_linear (c : Coeffs) (s t : ℂ) (z z' x x' : ℕ → ℂ) (n : ℕ) :
    lfilter c (fun i => s * z i + t * z' i) (fun n => s * x n + t * x' n) n = s * lfilter c z x n + t * lfilter c z' x' n := by
  simp only [lfilter]
  rw [state_linear]
  ring

/-- `lfilter_zi` is the state which constant ones leave as it is, and from which they become the gain at frequency zero. -/
theorem steady_fixed (c : Coeffs) (ht : 1 ≤ c.taps) (hl : c.den 0 = 1) (hp : ∑ k ∈ range c.taps, c.den k ≠ 0) :
    (c.num 0 + steady c 0 = (∑ k ∈ range c.taps, c.num k) / ∑ k ∈ range c.taps, c.den k) ∧
    ∀ i, c.num (i + 1) + steady c (i + 1) - c.den (i + 1) * (c.num 0 + steady c 0) = steady c i := by
  obtain ⟨m, hm⟩ : ∃ m, c.taps = m + 1 := ⟨c.taps - 1, by omega⟩
  have hd : ∑ k ∈ range c.taps, c.den k = 1 + ∑ k ∈ range m, c.den (k + 1) := by
    rw [hm, Finset.sum_range_succ', hl, add_comm]
  have hn : ∑ k ∈ range c.taps, c.num k = c.num 0 + ∑ k ∈ range m, c.num (k + 1) := by
    rw [hm, Finset.sum_range_succ', add_comm]
  have hB : ∑ k ∈ range m, (c.num (k + 1) - c.den (k + 1) * c.num 0) =
      ∑ k ∈ range m, c.num (k + 1) - (∑ k ∈ range m, c.den (k + 1)) * c.num 0 := by
    rw [Finset.sum_sub_distrib, Finset.sum_mul]
  rw [hd] at hp
  set D := ∑ k ∈ range m, c.den (k + 1) with hD
  set N := ∑ k ∈ range m, c.num (k + 1) with hN
  have h0 : steady c 0 = (N - D * c.num 0) / (1 + D) := by
    unfold steady
    dsimp only
    rw [hm, Nat.add_sub_cancel, hB, ← hD]
    by_cases h : 0 + 1 < m + 1
    · rw [if_pos h]; simp
    · have : m = 0 := by omega
      rw [if_neg h, hN, hD, this]; simp
  have hg : c.num 0 + steady c 0 = (c.num 0 + N) / (1 + D) := by
    rw [h0]; field_simp; ring
  refine ⟨by rw [hg, hn, hd], ?_⟩
  intro i
  have hS : ∀ j, j < m → steady c j = (1 + ∑ k ∈ range j, c.den (k + 1)) * steady c 0 -
      ∑ k ∈ range j, (c.num (k + 1) - c.den (k + 1) * c.num 0) := by
    intro j hj
    rw [h0]
    conv_lhs => unfold steady
    dsimp only
    rw [hm, Nat.add_sub_cancel, hB, ← hD, if_pos (by omega : j + 1 < m + 1)]
  have hZ : ∀ j, m ≤ j → steady c j = 0 := by
    intro j hj
    unfold steady
    dsimp only
    rw [if_neg (by omega)]
  by_cases hi : i + 1 < m
  · rw [hS (i + 1) hi, hS i (by omega), Finset.sum_range_succ, Finset.sum_range_succ]
    ring
  · rw [hZ (i + 1) (by omega)]
    by_cases hi' : i < m
    · have him : m = i + 1 := by omega
      have hlast : (1 + D) * steady c 0 - (N - D * c.num 0) = 0 := by rw [h0]; field_simp; ring
      rw [hS i hi']
      rw [← hB] at hlast
      rw [hD, him, Finset.sum_range_succ, Finset.sum_range_succ] at hlast
      linear_combination -hlast
    · rw [hZ i (by omega), num_taps c (i + 1) (by omega), den_taps c (i + 1) (by omega)]
      ring

/-- Constants leave the steady state as it is. -/
theorem lfilter_const (c : Coeffs) (ht : 1 ≤ c.taps) (hl : c.den 0 = 1) (hp : ∑ k ∈ range c.taps, c.den k ≠ 0) (v : ℂ) (x : ℕ → ℂ) (len : ℕ)
    (hx : ∀ n < len, x n = v) (n : ℕ) (hn : n < len) :
    lfilter c (fun i => steady c i * v) x n = (∑ k ∈ range c.taps, c.num k) / (∑ k ∈ range c.taps, c.den k) * v := by
  obtain ⟨h0, h1⟩ := steady_fixed c ht hl hp
  have key : ∀ n ≤ len, ∀ i, state c (fun i => steady c i * v) x n i = steady c i * v := by
    intro n
    induction n with
    | zero => intro _ i; rfl
    | succ n ih =>
      intro hn i
      rw [state]
      dsimp only
      rw [ih (by omega), ih (by omega), hx n (by omega)]
      linear_combination v * h1 i
  rw [lfilter, key n (by omega), hx n hn, ← h0]
  ring

/-! ### Theorems -/

/-- **Difference equations.**  What the filter returns solves the filter's difference equation, backwards in time, driven by a solution of the same
equation forwards in time, driven by the samples, wherever samples have the filter's order of predecessors within the signal. -/
theorem C139_recurrence (c : Coeffs) (num : ℕ) (x y : ℕ → ℂ) (hl : c.den 0 = 1) (ht : 1 ≤ c.taps) (h : filtfilt c num x = .ok y) :
    ∃ u : ℕ → ℂ,
      (∀ n, n < num → c.taps ≤ n + 1 → ∑ k ∈ range c.taps, c.den k * u (n - k) = ∑ k ∈ range c.taps, c.num k * x (n - k)) ∧
      (∀ n, n + c.taps ≤ num → ∑ k ∈ range c.taps, c.den k * y (n + k) = ∑ k ∈ range c.taps, c.num k * u (n + k)) := by
  unfold filtfilt at h
  dsimp only at h
  by_cases hlen : num ≤ 3 * c.taps
  · rw [if_pos hlen] at h; simp at h
  rw [if_neg hlen] at h
  simp only [Except.ok.injEq] at h
  have hz : ∀ i, c.taps ≤ i + 1 → steady c i = 0 := by
    intro i hi
    unfold steady
    dsimp only
    rw [if_neg (by omega)]
  set T := c.taps with hT
  set e := oddExt (3 * T) num x with he
  set z := fun i => steady c i * e 0 with hzd
  set v := lfilter c z e with hv
  refine ⟨fun n => v (n + 3 * T), ?_, ?_⟩
  · intro n hn hn'
    have := lfilter_taps c z e (n + 3 * T) (by rw [hzd]; dsimp only; rw [hz _ (by omega), zero_mul]) (by omega) hl ht
    rw [← hT] at this
    rw [← hv] at this
    have e1 : ∀ k ∈ range T, c.den k * v (n - k + 3 * T) = c.den k * v (n + 3 * T - k) := by
      intro k hk
      rw [mem_range] at hk
      rw [show n - k + 3 * T = n + 3 * T - k by omega]
    have e2 : ∀ k ∈ range T, c.num k * e (n + 3 * T - k) = c.num k * x (n - k) := by
      intro k hk
      rw [mem_range] at hk
      rw [he, oddExt, if_neg (by omega), if_pos (by omega), show n + 3 * T - k - 3 * T = n - k by omega]
    dsimp only
    rw [Finset.sum_congr rfl e1, this, Finset.sum_congr rfl e2]
  · intro n hn
    set len := num + 2 * (3 * T) with hle
    have := lfilter_taps c (fun i => steady c i * v (len - 1)) (fun n => v (len - 1 - n)) (len - 1 - (n + 3 * T))
      (by rw [hz _ (by omega), zero_mul]) (by omega) hl ht
    rw [← hT] at this
    rw [← h]
    have e1 : ∀ k ∈ range T, c.den k * lfilter c (fun i => steady c i * v (len - 1)) (fun n => v (len - 1 - n)) (len - 1 - (n + k + 3 * T)) =
        c.den k * lfilter c (fun i => steady c i * v (len - 1)) (fun n => v (len - 1 - n)) (len - 1 - (n + 3 * T) - k) := by
      intro k _
      rw [show len - 1 - (n + k + 3 * T) = len - 1 - (n + 3 * T) - k by omega]
    dsimp only
    rw [Finset.sum_congr rfl e1, this]
    refine Finset.sum_congr rfl fun k hk => ?_
    rw [mem_range] at hk
    rw [show len - 1 - (len - 1 - (n + 3 * T) - k) = n + k + 3 * T by omega]

/-- **No kinks at the ends.**  What streams are extended with before they are filtered continues ramps of any slope at both ends. -/
theorem C139_ramps (edge num : ℕ) (h : edge < num) (a b : ℂ) (n : ℕ) (hn : n < num + 2 * edge) :
    oddExt edge num (fun n => a + b * n) n = a + b * ((n : ℂ) - edge) := by
  unfold oddExt
  by_cases h1 : n < edge
  · rw [if_pos h1]
    push_cast [Nat.cast_sub h1.le]
    ring
  · rw [if_neg h1]
    by_cases h2 : n < edge + num
    · rw [if_pos h2]
      push_cast [Nat.cast_sub (by omega : edge ≤ n)]
      ring
    · rw [if_neg h2]
      have e : ((num - 2 - (n - edge - num) : ℕ) : ℂ) = 2 * num - 2 - (n - edge) := by
        have : num - 2 - (n - edge - num) + n + 2 = 2 * num + edge := by omega
        have h3 : ((num - 2 - (n - edge - num) : ℕ) : ℂ) + n + 2 = 2 * num + edge := by exact_mod_cast this
        linear_combination h3
      have e1 : ((num - 1 : ℕ) : ℂ) = (num : ℂ) - 1 := by push_cast [Nat.cast_sub (by omega : 1 ≤ num)]; ring
      simp only [e, e1]
      ring

example : oddExt 2 3 (fun n => 5 + 2 * n) 6 = 13 := by
  have := C139_ramps 2 3 (by decide) 5 2 6 (by decide)
  rw [this]
  norm_num

/-- **Linearity.**  Filtering weighted sums of two streams is the same as weighting and summing filtered streams. -/
theorem C139_linear (c : Coeffs) (num : ℕ) (s t : ℂ) (x x' y y' : ℕ → ℂ) (h : filtfilt c num x = .ok y) (h' : filtfilt c num x' = .ok y') :
    filtfilt c num (fun n => s * x n + t * x' n) = .ok fun n => s * y n + t * y' n := by
  unfold filtfilt at h h' ⊢
  dsimp only at h h' ⊢
  by_cases hlen : num ≤ 3 * c.taps
  · rw [if_pos hlen] at h; simp at h
  rw [if_neg hlen] at h h' ⊢
  simp only [Except.ok.injEq] at h h' ⊢
  have he : oddExt (3 * c.taps) num (fun n => s * x n + t * x' n) =
      fun n => s * oddExt (3 * c.taps) num x n + t * oddExt (3 * c.taps) num x' n := by
    funext n
    unfold oddExt
    by_cases h1 : n < 3 * c.taps
    · simp only [if_pos h1]; ring
    · by_cases h2 : n < 3 * c.taps + num
      · simp only [if_neg h1, if_pos h2]
      · simp only [if_neg h1, if_neg h2]; ring
  have hzero : ∀ a b : ℂ, (fun i => steady c i * (s * a + t * b)) = fun i => s * (steady c i * a) + t * (steady c i * b) := by
    intro a b; funext i; ring
  rw [he]
  dsimp only
  funext n
  rw [← h, ← h']
  dsimp only
  simp only [hzero, lfilter_linear]

/-- **Constants** are scaled by the square of the gain at frequency zero, at every sample: nothing swings in at the ends of the signal. -/
theorem C139_constant (c : Coeffs) (num : ℕ) (v : ℂ) (x : ℕ → ℂ) (hl : c.den 0 = 1) (ht : 1 ≤ c.taps)
    (hp : ∑ k ∈ range c.taps, c.den k ≠ 0) (hx : ∀ n < num, x n = v) (hnum : 3 * c.taps < num) :
    ∃ y, filtfilt c num x = .ok y ∧ ∀ n < num, y n = ((∑ k ∈ range c.taps, c.num k) / ∑ k ∈ range c.taps, c.den k) ^ 2 * v := by
  unfold filtfilt
  dsimp only
  rw [if_neg (by omega)]
  refine ⟨_, rfl, ?_⟩
  intro n hn
  set len := num + 2 * (3 * c.taps) with hlen
  set e := oddExt (3 * c.taps) num x with he
  have hev : ∀ n < len, e n = v := by
    intro n hn
    rw [he]
    unfold oddExt
    by_cases h1 : n < 3 * c.taps
    · rw [if_pos h1, hx _ (by omega), hx _ (by omega)]; ring
    · rw [if_neg h1]
      by_cases h2 : n < 3 * c.taps + num
      · rw [if_pos h2, hx _ (by omega)]
      · rw [if_neg h2, hx _ (by omega), hx _ (by omega)]; ring
  have hv : ∀ n < len, lfilter c (fun i => steady c i * e 0) e n = (∑ k ∈ range c.taps, c.num k) / (∑ k ∈ range c.taps, c.den k) * v := by
    intro n hn
    rw [hev 0 (by omega)]
    exact lfilter_const c ht hl hp v e len hev n hn
  rw [hv (len - 1) (by omega), lfilter_const c ht hl hp _ _ len (fun n hn => hv (len - 1 - n) (by omega)) _ (by omega)]
  ring

/-- What the rows become. -/
theorem filterRows_ok (c : Coeffs) (num : ℕ) (hnum : 3 * c.taps < num) : ∀ rows : List (List ℂ), ∃ out, filterRows c num rows = .ok out ∧
    out.length = rows.length ∧
    ∀ (i : ℕ) (r : List ℂ), rows[i]? = some r → ∃ y, filtfilt c num (fun n => r.getD n 0) = .ok y ∧ out[i]? = some ((List.range num).map y) := by
  intro rows
  induction rows with
  | nil => exact ⟨[], rfl, rfl, by simp⟩
  | cons r rs ih =>
    obtain ⟨out, h1, h2, h3⟩ := ih
    obtain ⟨y, hy⟩ : ∃ y, filtfilt c num (fun n => r.getD n 0) = .ok y := by
      unfold filtfilt
      dsimp only
      rw [if_neg (by omega)]
      exact ⟨_, rfl⟩
    refine ⟨(List.range num).map y :: out, ?_, by simp [h2], ?_⟩
    · rw [filterRows, hy, h1]
    · intro i r' hr
      cases i with
      | zero =>
        simp only [List.getElem?_cons_zero, Option.some.injEq] at hr
        subst hr
        exact ⟨y, hy, by simp⟩
      | succ i =>
        simp only [List.getElem?_cons_succ] at hr ⊢
        exact h3 i r' hr

/-- **Shape and meta data.**  Filters keep the numbers of streams and samples, the sampling rate, the carrier frequencies, the noise powers and the delay
of signals, and filter every stream by itself. -/
theorem C139_shape_partial (c : Coeffs) (s : RfSignal ℂ) (hc : s.carriers.length = s.rows.length) (hn : s.noises.length = s.rows.length)
    (hd : 0 ≤ s.delay) (hnum : 3 * c.taps < s.samples) :
    ∃ o, filterPropagate c s = .ok o ∧ o.rows.length = s.rows.length ∧ o.samples = s.samples ∧ (∀ r ∈ o.rows, r.length = s.samples) ∧
      o.rate = s.rate ∧ o.carriers = s.carriers ∧ o.noises = s.noises ∧ o.delay = s.delay ∧
      ∀ (i : ℕ) (r : List ℂ), s.rows[i]? = some r → ∃ y, filtfilt c s.samples (fun n => r.getD n 0) = .ok y ∧
        ∀ n < s.samples, (o.rows.getD i []).getD n 0 = y n := by
  obtain ⟨out, h1, h2, h3⟩ := filterRows_ok c s.samples hnum s.rows
  unfold filterPropagate
  rw [h1]
  simp only [fromNDArray, Verif.Rf.Sig.Meta.perStream]
  rw [if_neg (not_lt.mpr hd), if_pos (by rw [hc, h2]), if_pos (by rw [hn, h2])]
  refine ⟨_, rfl, h2, rfl, ?_, rfl, rfl, rfl, rfl, ?_⟩
  · intro r hr
    dsimp only at hr
    obtain ⟨i, hi, e⟩ := List.getElem_of_mem hr
    obtain ⟨y, _, hy⟩ := h3 i _ (List.getElem?_eq_getElem (by omega : i < s.rows.length))
    rw [List.getElem?_eq_getElem hi, Option.some.injEq, e] at hy
    rw [hy]; simp
  · intro i r hr
    obtain ⟨y, hy, ho⟩ := h3 i r hr
    refine ⟨y, hy, ?_⟩
    intro n hns
    dsimp only
    have hg : out.getD i [] = (List.range s.samples).map y := by rw [List.getD_eq_getElem?_getD, ho]; rfl
    rw [hg, List.getD_eq_getElem?_getD]
    simp [hns]

/-- **Short signals are refused.**  Signals of at most three times as many samples as the filter has coefficients raise a `ValueError`, although
`RFBlock.propagate` pads signals too short for its own filter. -/
theorem C139_short_fails (order : ℕ) (c : Coeffs) (hc : Highpass order c) (s : RfSignal ℂ) (hr : s.rows ≠ []) (hs : s.samples ≤ 3 * (order + 1)) :
    filterPropagate c s = .error .value := by
  have ht : c.taps = order + 1 := by unfold Coeffs.taps; rw [hc.numb, hc.numa, max_self]
  obtain ⟨r, rs, e⟩ := List.exists_cons_of_ne_nil hr
  unfold filterPropagate
  rw [e]
  simp only [filterRows, filtfilt, ht, if_pos hs]

/-- **Cutoff frequencies are not those of the transmitted spectrum.**  The filter sees the baseband: a carrier without modulation is removed by every high
pass, however far its frequency is above the cutoff frequency, and at every sampling rate. -/
theorem C139_carrier_fails (order : ℕ) (c : Coeffs) (hc : Highpass order c) (v : ℂ) (num : ℕ) (f rate : ℚ) (hnum : 3 * (order + 1) < num) :
    ∃ o, filterPropagate c ⟨[List.replicate num v], num, rate, f, 0, 0, [f], [0]⟩ = .ok o ∧ o.carriers = [f] ∧
      o.rows = [List.replicate num 0] := by
  have ht : c.taps = order + 1 := by unfold Coeffs.taps; rw [hc.numb, hc.numa, max_self]
  have hx : ∀ n < num, (fun n => (List.replicate num v).getD n 0) n = v := by
    intro n hn
    simp [List.getD_eq_getElem?_getD, hn]
  obtain ⟨y, hy, hv⟩ := C139_constant c num v _ hc.lead (by omega) (by rw [ht]; exact hc.pole) hx (by omega)
  unfold filterPropagate
  simp only [filterRows, hy]
  refine ⟨_, rfl, rfl, ?_⟩
  dsimp only
  congr 1
  apply List.ext_getElem
  · simp
  · intro n h1 h2
    simp only [List.getElem_map, List.getElem_range, List.getElem_replicate]
    simp only [List.length_map, List.length_range] at h1
    rw [hv n h1, ht, hc.zero]
    simp

/-- The high pass of order one with a cutoff frequency of a quarter of the sampling rate, `butter(1, fs / 4, btype='high', fs=fs)`. -/
noncomputable def quarter : Coeffs := ⟨[1 / 2, -(1 / 2)], [1, 0]⟩

theorem quarter_highpass : Highpass 1 quarter := by
  constructor
  · rfl
  · rfl
  · simp [Coeffs.den, quarter]
  · simp [Finset.sum_range_succ, Coeffs.num, quarter]
  · simp [Finset.sum_range_succ, Coeffs.den, quarter]

/-- **Cutoff frequencies are not those of half the power.**  Passing the filter in either direction squares its gain: a tone at the cutoff frequency of a high
pass of order one is halved in amplitude and left a quarter of its power, at all samples but the first and last. -/
theorem C139_cutoff_fails (num : ℕ) (hnum : 6 < num) : ∃ y, filtfilt quarter num (fun n => Complex.I ^ n) = .ok y ∧
    ∀ n, 0 < n → n + 1 < num → y n = 1 / 2 * Complex.I ^ n ∧ ‖y n‖ ^ 2 = 1 / 4 := by
  have ht : quarter.taps = 2 := rfl
  obtain ⟨y, hy⟩ : ∃ y, filtfilt quarter num (fun n => Complex.I ^ n) = .ok y := by
    unfold filtfilt
    dsimp only
    rw [ht, if_neg (by omega)]
    exact ⟨_, rfl⟩
  refine ⟨y, hy, ?_⟩
  intro n h0 h1
  obtain ⟨u, hu, hv⟩ := C139_recurrence quarter num _ y quarter_highpass.lead (by rw [ht]; omega) hy
  have d0 : quarter.den 0 = 1 := quarter_highpass.lead
  have d1 : quarter.den 1 = 0 := by simp [Coeffs.den, quarter]
  have n0 : quarter.num 0 = 1 / 2 := by simp [Coeffs.num, quarter]
  have n1 : quarter.num 1 = -(1 / 2) := by simp [Coeffs.num, quarter]
  have a1 := hu n (by omega) (by rw [ht]; omega)
  have a2 := hu (n + 1) (by omega) (by rw [ht]; omega)
  have a3 := hv n (by rw [ht]; omega)
  simp only [ht, Finset.sum_range_succ, Finset.range_zero, Finset.sum_empty, d0, d1, n0, n1, Nat.sub_zero, Nat.add_sub_cancel, Nat.add_zero] at a1 a2 a3
  obtain ⟨m, rfl⟩ : ∃ m, n = m + 1 := ⟨n - 1, by omega⟩
  rw [Nat.add_sub_cancel] at a1
  have hI : Complex.I ^ (m + 1 + 1) = -Complex.I ^ m := by rw [pow_succ, pow_succ, mul_assoc, Complex.I_mul_I]; ring
  have e : y (m + 1) = 1 / 2 * Complex.I ^ (m + 1) := by
    rw [hI] at a2
    linear_combination a3 + 1 / 2 * a1 - 1 / 2 * a2
  refine ⟨e, ?_⟩
  rw [e, norm_mul, norm_pow, Complex.norm_I]
  norm_num

/-- **Configuration.**  Blocks are configured with positive cutoff frequencies and orders of at least one, and with nothing else. -/
theorem C139_configuration (cutoff : ℝ) (order : ℤ) :
    (∀ h, Hpf.new cutoff order = .ok h → h = ⟨cutoff, order⟩ ∧ 0 < cutoff ∧ 1 ≤ order) ∧
    (0 < cutoff → 1 ≤ order → Hpf.new cutoff order = .ok ⟨cutoff, order⟩) ∧
    (cutoff ≤ 0 ∨ order < 1 → Hpf.new cutoff order = .error .value) := by
  unfold Hpf.new Hpf.setCutoff Hpf.setOrder
  by_cases h1 : cutoff ≤ 0
  · simp only [if_pos h1, bind, Except.bind]
    refine ⟨by simp, fun h => absurd h (by linarith), fun _ => trivial⟩
  · by_cases h2 : order < 1
    · simp only [if_neg h1, if_pos h2, bind, Except.bind]
      refine ⟨by simp, fun _ h => absurd h (by omega), fun _ => trivial⟩
    · simp only [if_neg h1, if_neg h2, bind, Except.bind]
      refine ⟨?_, fun _ _ => trivial, fun h => absurd h (by push Not; exact ⟨by linarith, by omega⟩)⟩
      intro h e
      simp only [Except.ok.injEq] at e
      exact ⟨e.symm, by linarith, by omega⟩

/-- The cache holds what `butter` returned, of arrays that exist, each for one key. -/
def Good (butter : ℝ × ℝ × ℤ → Coeffs) (m : Mem) : Prop :=
  ∀ k i, m.cache k = some i → i < m.next ∧ m.arrays i = butter k ∧ 0 < k.1 ∧ k.1 < k.2.1 / 2

theorem coefficients_good (butter : ℝ × ℝ × ℤ → Coeffs) (m : Mem) (hm : Good butter m) (key : ℝ × ℝ × ℤ) (r : Mem × ℕ)
    (h : coefficients butter m key = .ok r) : Good butter r.1 ∧ r.1.arrays r.2 = butter key ∧ 0 < key.1 ∧ key.1 < key.2.1 / 2 := by
  unfold coefficients at h
  split at h
  · rename_i i hi
    simp only [Except.ok.injEq] at h
    subst h
    obtain ⟨_, h2, h3, h4⟩ := hm key i hi
    exact ⟨hm, h2, h3, h4⟩
  · rename_i hi
    by_cases hk : key.1 ≤ 0 ∨ key.2.1 / 2 ≤ key.1
    · rw [if_pos hk] at h; simp at h
    · rw [if_neg hk] at h
      simp only [Except.ok.injEq] at h
      subst h
      push Not at hk
      refine ⟨?_, by simp, hk.1, hk.2⟩
      intro k i hki
      dsimp only at hki ⊢
      by_cases e : k = key
      · rw [if_pos e, Option.some.injEq] at hki
        subst hki
        subst e
        exact ⟨by omega, by simp, hk.1, hk.2⟩
      · rw [if_neg e] at hki
        obtain ⟨h1, h2, h3⟩ := hm k i hki
        refine ⟨by omega, ?_, h3⟩
        rw [if_neg (by omega)]
        exact h2

/-- **Realizations.**  Whatever blocks were realized before, realizing a block returns the coefficients of its own cutoff frequency and order at the sampling
rate of the simulation, and raises a `ValueError` exactly if the cutoff frequency is not below half of it, provided nobody writes to the
coefficients of realizations. -/
theorem C139_realize_partial (butter : ℝ × ℝ × ℤ → Coeffs) (ops : List Op) (hops : ∀ o ∈ ops, ∃ h bw os, o = .realize h bw os)
    (h : Hpf) (hc : 0 < h.cutoff) (bandwidth : ℝ) (oversampling : ℕ) :
    (h.cutoff < bandwidth * oversampling / 2 → ∃ r, h.realize butter (ops.foldl (step butter) empty) bandwidth oversampling = .ok r ∧
      r.1.arrays r.2 = butter (h.cutoff, bandwidth * oversampling, h.order)) ∧
    (bandwidth * oversampling / 2 ≤ h.cutoff → h.realize butter (ops.foldl (step butter) empty) bandwidth oversampling = .error .value) := by
  have good : ∀ (l : List Op) (m : Mem), (∀ o ∈ l, ∃ h bw os, o = .realize h bw os) → Good butter m → Good butter (l.foldl (step butter) m) := by
    intro l
    induction l with
    | nil => intro m _ hm; exact hm
    | cons o l ih =>
      intro m hl hm
      rw [List.foldl_cons]
      apply ih _ (fun o ho => hl o (List.mem_cons_of_mem _ ho))
      obtain ⟨h', bw, os, rfl⟩ := hl o List.mem_cons_self
      simp only [step]
      cases hr : h'.realize butter m bw os with
      | error e => exact hm
      | ok r => exact (coefficients_good butter m hm _ r hr).1
  have hg := good ops empty hops (by intro k i hk; simp [empty] at hk)
  constructor
  · intro hlt
    cases hr : h.realize butter (ops.foldl (step butter) empty) bandwidth oversampling with
    | ok r => exact ⟨r, rfl, (coefficients_good butter _ hg _ r hr).2.1⟩
    | error e =>
      exfalso
      unfold Hpf.realize coefficients at hr
      split at hr
      · simp at hr
      · rw [if_neg (by push Not; exact ⟨hc, hlt⟩)] at hr
        simp at hr
  · intro hle
    unfold Hpf.realize coefficients
    split
    · rename_i i hi
      have := (hg _ i hi).2.2.2
      dsimp only at this
      linarith
    · rw [if_pos (Or.inr hle)]

/-- **Realizations share their coefficients.**  Whoever changes the coefficients of one realization changes those of all realizations, earlier and later and of all blocks,
of the same cutoff frequency, order and sampling rate. -/
theorem C139_shared_fails (butter : ℝ × ℝ × ℤ → Coeffs) (m : Mem) (h h' : Hpf) (bandwidth bandwidth' : ℝ) (oversampling oversampling' : ℕ) (r : Mem × ℕ)
    (hr : h.realize butter m bandwidth oversampling = .ok r) (hc : h'.cutoff = h.cutoff) (ho : h'.order = h.order)
    (hrate : bandwidth' * oversampling' = bandwidth * oversampling) (c : Coeffs) :
    ∃ r', h'.realize butter (step butter r.1 (.write r.2 c)) bandwidth' oversampling' = .ok r' ∧ r'.2 = r.2 ∧ r'.1.arrays r'.2 = c := by
  have hk : r.1.cache (h.cutoff, bandwidth * oversampling, h.order) = some r.2 := by
    unfold Hpf.realize coefficients at hr
    split at hr
    · rename_i i hi
      simp only [Except.ok.injEq] at hr
      subst hr
      exact hi
    · split at hr
      · simp at hr
      · simp only [Except.ok.injEq] at hr
        subst hr
        simp
  unfold Hpf.realize coefficients
  rw [hc, ho, hrate]
  simp only [step, hk]
  exact ⟨_, rfl, rfl, by simp⟩

/-- Non-vacuity: a carrier at 1 GHz passes no high pass with a cutoff frequency of a quarter of the sampling rate, and is refused by it if only six samples
are sent. -/
example : (∃ o, filterPropagate quarter ⟨[List.replicate 7 1], 7, 4, 1000000000, 0, 0, [1000000000], [0]⟩ = .ok o ∧ o.rows = [List.replicate 7 0]) ∧
    filterPropagate quarter ⟨[List.replicate 6 1], 6, 4, 1000000000, 0, 0, [1000000000], [0]⟩ = .error .value := by
  constructor
  · obtain ⟨o, h1, _, h3⟩ := C139_carrier_fails 1 quarter quarter_highpass 1 7 1000000000 4 (by norm_num)
    exact ⟨o, h1, h3⟩
  · exact C139_short_fails 1 quarter quarter_highpass _ (by simp) (by norm_num)

/-- Non-vacuity: the hypotheses of the statements about shapes, linearity and realizations are met. -/
example : (∃ o, filterPropagate quarter ⟨[List.replicate 8 Complex.I, List.replicate 8 2], 8, 4, 0, 0, 1, [0, 5], [1, 2]⟩ = .ok o ∧
      o.carriers = [0, 5] ∧ o.delay = 1) ∧
    (∃ y, filtfilt quarter 8 (fun n => (n : ℂ)) = .ok y) ∧
    ∃ r, (⟨1, 1⟩ : Hpf).realize (fun _ => quarter) ([Op.realize ⟨1, 1⟩ 4 1].foldl (step fun _ => quarter) empty) 4 1 = .ok r ∧
      r.1.arrays r.2 = quarter := by
  refine ⟨?_, ?_, ?_⟩
  · obtain ⟨o, h1, _, _, _, _, h2, _, h3, _⟩ := C139_shape_partial quarter ⟨[List.replicate 8 Complex.I, List.replicate 8 2], 8, 4, 0, 0, 1, [0, 5], [1, 2]⟩
      rfl rfl (by norm_num) (by simp [Coeffs.taps, quarter])
    exact ⟨o, h1, h2, h3⟩
  · unfold filtfilt
    exact ⟨_, by dsimp only; rw [if_neg (by simp [Coeffs.taps, quarter])]⟩
  · exact (C139_realize_partial (fun _ => quarter) [.realize ⟨1, 1⟩ 4 1] (by intro o ho; simp at ho; exact ⟨_, _, _, ho⟩) ⟨1, 1⟩ (by norm_num) 4 1).1
      (by norm_num)

end Verif.Rf.Filters
