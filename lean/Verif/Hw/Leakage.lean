import Verif.Np
import Verif.Dft
import Verif.Signal.Slice
import Mathlib.Tactic.FieldSimp
import Mathlib.Analysis.SpecialFunctions.Complex.Circle

/-!
# C110: leakage calibrations

Model of `hermespy/hardware_loop/calibration/leakage.py`: a device's transmissions leak into its receptions by a linear filter
between each pair of ports; the calibration estimates the filters and removes the leakage.  Signals are dense.  Estimates by
minimum mean square errors (lines 446-551) are C143.
-/

namespace Verif.HwLeakage

open Verif.Signal (pyRound)
open Verif.Dft (Norm fft ifft ifft_fft)
open Complex (exp I)
open scoped BigOperators

noncomputable section

/-- A dense signal, `core/signal_model.py` 1187-1227. -/
structure Sig where
  rows : List (List ℂ)
  num : ℕ
  rate : ℚ
  carrier : ℚ
  delay : ℚ
  noise : ℚ

/-- `SelectiveLeakageCalibration`, `leakage.py` 32-41: `h m n l` is the response of receive port `m` to transmit port `n`; it
is of shape `M × N × L`. -/
structure Calibration where
  M : ℕ
  N : ℕ
  L : ℕ
  h : ℕ → ℕ → ℕ → ℂ
  rate : ℚ
  delay : ℚ
  transmit : Option (List ℕ)
  receive : Option (List ℕ)

/-- `__init__`, `leakage.py` 43-85, of a three-dimensional response. -/
def new (M N L : ℕ) (h : ℕ → ℕ → ℕ → ℂ) (rate delay : ℚ) (transmit receive : Option (List ℕ)) : Except PyErr Calibration :=
  if rate ≤ 0 then .error .value
  else if delay < 0 then .error .value
  else .ok ⟨M, N, L, h, rate, delay, transmit, receive⟩

/-- Sample `i` of a stream, silence outside. -/
def sampleAt (x : List ℂ) (i : ℤ) : ℂ := if 0 ≤ i then x.getD i.toNat 0 else 0

/-- `scipy.signal.convolve`, of everything. -/
def convolve (L : ℕ) (h : ℕ → ℂ) (x : List ℂ) : List ℂ :=
  if L = 0 ∨ x = [] then []
  else (List.range (L + x.length - 1)).map fun (i : ℕ) => ∑ l ∈ Finset.range L, h l * sampleAt x ((i : ℤ) - l)

/-- Where a slice bound `k` lies in `n` samples: numpy counts negative bounds from the end. -/
def bound (n : ℕ) (k : ℤ) : ℕ := if k < 0 then (n + k).toNat else min k.toNat n

/-- `x[a:b]`. -/
def slice (x : List ℂ) (a b : ℤ) : List ℂ := (x.take (bound x.length b)).drop (bound x.length a)

/-- Difference of arrays of a dimension each: lengths agree, or are one. -/
def subtract (a b : List ℂ) : Except PyErr (List ℂ) :=
  if a.length = b.length then .ok (List.zipWith (· - ·) a b)
  else if b.length = 1 then .ok (a.map fun z => z - b.headD 0)
  else if a.length = 1 then .ok (b.map fun z => a.headD 0 - z)
  else .error .value

/-- `x[a:b] = v`. -/
def assign (x : List ℂ) (a b : ℤ) (v : List ℂ) : Except PyErr (List ℂ) :=
  let lo := bound x.length a
  let hi := max lo (bound x.length b)
  if v.length = hi - lo then .ok (x.take lo ++ v ++ x.drop hi)
  else if v.length = 1 then .ok (x.take lo ++ List.replicate (hi - lo) (v.headD 0) ++ x.drop hi)
  else .error .value

/-- A prediction `y` removed from a stream, `leakage.py` 188-210. -/
def removeFrom (x : List ℂ) (shift : ℤ) (y : List ℂ) : Except PyErr (List ℂ) :=
  if 0 ≤ shift then do
    let range := min (shift + y.length) (x.length : ℤ)
    let cnt := min ((x.length : ℤ) - shift) (y.length : ℤ)
    let v ← subtract (slice x shift range) (slice y 0 cnt)
    assign x shift range v
  else do
    let range := min (shift + y.length) ((x.length : ℤ) + shift)
    let cnt := min (x.length : ℤ) (y.length : ℤ)
    let v ← subtract (slice x 0 range) (slice y (-shift) cnt)
    assign x 0 range v

/-- Streams selected by ports, or all. -/
def select (rows : List (List ℂ)) : Option (List ℕ) → Except PyErr (List (List ℂ))
  | none => .ok rows
  | some ports => ports.mapM fun p => match rows[p]? with
    | some r => .ok r
    | none => .error .index

/-- The leakage of transmit port `n` removed from a stream of receive port `m`, `leakage.py` 182-186 and 188-210. -/
def Calibration.removePair (c : Calibration) (sent : List (List ℂ)) (shift : ℤ) (m n : ℕ) (x : List ℂ) : Except PyErr (List ℂ) :=
  if c.N ≤ n then .error .index
  else removeFrom x shift (convolve c.L (c.h m n) (sent.getD n []))

/-- A row of the loop, `leakage.py` 176-210. -/
def Calibration.removeRow (c : Calibration) (sent : List (List ℂ)) (shift : ℤ) (m : ℕ) (ns : List ℕ) (x : List ℂ) :
    Except PyErr (List ℂ) :=
  ns.foldlM (fun x n => c.removePair sent shift m n x) x

/-- The receive port of row `m` of the response, `leakage.py` 146-150 and 180. -/
def Calibration.port (c : Calibration) (m : ℕ) : Except PyErr ℕ :=
  match c.receive with
  | none => .ok m
  | some ports => match ports[m]? with
    | some p => .ok p
    | none => .error .index

/-- `remove_leakage`, `leakage.py` 142-212.  Ports beyond the streams received are left out. -/
def Calibration.remove (c : Calibration) (tx rx : Sig) : Except PyErr Sig := do
  let sent ← select tx.rows c.transmit
  if tx.rate ≠ rx.rate then .error .value
  else if tx.carrier ≠ rx.carrier then .error .value
  else if tx.num < 1 then .ok rx
  else
    let shift := pyRound ((c.delay - (tx.delay + rx.delay)) * rx.rate)
    let rows ← (List.range (min rx.rows.length c.M)).foldlM (fun rows m => do
      let p ← c.port m
      match rows[p]? with
      | none => .ok rows
      | some x => do
        let x ← c.removeRow sent shift m (List.range (min tx.rows.length c.M)) x
        .ok (rows.set p x)) rx.rows
    .ok { rx with rows := rows }

/-- Sum of two streams, as `+=` of numpy, lengths equal. -/
def addRows (a b : List ℂ) : List ℂ := List.zipWith (· + ·) a b

/-- `predict_leakage`, `leakage.py` 110-140.  The delay is passed on in the place of the noise power, `core/signal_model.py`
1262-1269. -/
def Calibration.predict (c : Calibration) (tx : Sig) : Except PyErr Sig := do
  let sent ← select tx.rows c.transmit
  if sent.length ≠ c.N then .error .value
  else do
    let rows ← (List.range c.M).mapM fun m =>
      (List.range tx.rows.length).foldlM (fun x n =>
        if c.N ≤ n then .error .index
        else .ok (addRows x (convolve c.L (c.h m n) (tx.rows.getD n []))))
        (List.replicate (tx.num + c.L - 1) 0)
    .ok ⟨rows, tx.num + c.L - 1, tx.rate, tx.carrier, 0, tx.delay + c.delay⟩

/-- Storage, `leakage.py` 553-568. -/
def Calibration.restore (c : Calibration) : Except PyErr Calibration := new c.M c.N c.L c.h c.rate c.delay none none

/-! ## Removal -/

theorem bound_nonneg (n : ℕ) (k : ℕ) : bound n k = min k n := by
  unfold bound
  rw [if_neg (by omega)]
  simp

theorem removeFrom_late (x y : List ℂ) (s : ℕ) (hs : s ≤ x.length) :
    ∃ r, removeFrom x s y = .ok r ∧ r.length = x.length ∧
      ∀ i < x.length, r.getD i 0 = x.getD i 0 - sampleAt y ((i : ℤ) - s) := by
  set b := min (s + y.length) x.length with hb
  have e1 : min ((s : ℤ) + y.length) (x.length : ℤ) = (b : ℕ) := by push_cast [hb]; rfl
  have e2 : min ((x.length : ℤ) - s) (y.length : ℤ) = ((b - s : ℕ) : ℤ) := by omega
  have hsb : s ≤ b := by omega
  have hv : subtract (slice x s b) (slice y 0 ((b - s : ℕ) : ℤ)) =
      .ok (List.zipWith (· - ·) ((x.take b).drop s) (y.take (b - s))) := by
    unfold subtract slice
    rw [bound_nonneg, bound_nonneg, show (0 : ℤ) = ((0 : ℕ) : ℤ) from rfl, bound_nonneg, bound_nonneg]
    have a1 : min b x.length = b := by omega
    have a2 : min s x.length = s := by omega
    have a3 : min (b - s) y.length = b - s := by omega
    rw [a1, a2, a3]
    simp only [Nat.zero_min, List.drop_zero]
    rw [if_pos (by simp; omega)]
  refine ⟨x.take s ++ List.zipWith (· - ·) ((x.take b).drop s) (y.take (b - s)) ++ x.drop b, ?_, ?_, fun i hi => ?_⟩
  · unfold removeFrom
    rw [if_pos (by omega)]
    simp only [e1, e2, hv, bind, Except.bind]
    unfold assign
    rw [bound_nonneg, bound_nonneg]
    have a1 : min b x.length = b := by omega
    have a2 : min s x.length = s := by omega
    simp only [a1, a2, max_eq_right hsb]
    rw [if_pos (by simp; omega)]
  · simp
    omega
  · have hsl : (x.take s).length = s := by simp; omega
    have hzl : (List.zipWith (· - ·) ((x.take b).drop s) (y.take (b - s))).length = b - s := by simp; omega
    simp only [List.getD_eq_getElem?_getD]
    unfold sampleAt
    rcases Nat.lt_or_ge i s with h1 | h1
    · rw [if_neg (by omega), sub_zero, List.append_assoc, List.getElem?_append_left (by omega), List.getElem?_take_of_lt h1]
    · rw [if_pos (by omega)]
      have ht : ((i : ℤ) - s).toNat = i - s := by omega
      rw [ht]
      rcases Nat.lt_or_ge i b with h2 | h2
      · rw [List.append_assoc, List.getElem?_append_right (by omega), hsl, List.getElem?_append_left (by omega),
          List.getElem?_zipWith]
        have q1 : ((x.take b).drop s)[i - s]? = some (x[i]'hi) := by
          rw [List.getElem?_drop, show s + (i - s) = i by omega, List.getElem?_take_of_lt h2]
          simp [hi]
        have hy : i - s < y.length := by omega
        have q2 : (y.take (b - s))[i - s]? = some (y[i - s]'hy) := by
          rw [List.getElem?_take_of_lt (by omega)]
          simp [hy]
        rw [q1, q2]
        simp [hi, hy, List.getD_eq_getElem?_getD]
      · rw [List.getElem?_append_right (by simp; omega), List.getElem?_drop]
        have e3 : b + (i - (x.take s ++ List.zipWith (· - ·) ((x.take b).drop s) (y.take (b - s))).length) = i := by
          rw [List.length_append, hsl, hzl]; omega
        rw [e3, List.getD_eq_getElem?_getD, List.getElem?_eq_none (l := y) (by omega)]
        simp

theorem sampleAt_convolve (L : ℕ) (h : ℕ → ℂ) (x : List ℂ) (i : ℤ) :
    sampleAt (convolve L h x) i = ∑ l ∈ Finset.range L, h l * sampleAt x (i - l) := by
  unfold convolve
  split_ifs with h0
  · rcases h0 with h0 | h0
    · subst h0
      simp [sampleAt]
    · subst h0
      simp [sampleAt]
  · push Not at h0
    have hx : 0 < x.length := List.length_pos_iff.mpr h0.2
    by_cases hi : 0 ≤ i
    · obtain ⟨j, rfl⟩ := Int.eq_ofNat_of_zero_le hi
      conv_lhs => unfold sampleAt
      rw [if_pos hi, Int.toNat_natCast, List.getD_eq_getElem?_getD, List.getElem?_map]
      by_cases hj : j < L + x.length - 1
      · rw [List.getElem?_range hj]
        rfl
      · rw [List.getElem?_eq_none (by simpa using hj)]
        symm
        refine Finset.sum_eq_zero fun l hl => ?_
        have hl' : l < L := by simpa using hl
        unfold sampleAt
        rw [if_pos (by omega), List.getD_eq_getElem?_getD, List.getElem?_eq_none (by omega)]
        simp
    · conv_lhs => unfold sampleAt
      rw [if_neg hi]
      symm
      refine Finset.sum_eq_zero fun l hl => ?_
      unfold sampleAt
      rw [if_neg (by omega), mul_zero]

/-- The leakage of the transmit ports `ns` in a stream of receive port `m`, `shift` samples late. -/
def leak (c : Calibration) (sent : List (List ℂ)) (shift : ℤ) (m n : ℕ) (i : ℤ) : ℂ :=
  ∑ l ∈ Finset.range c.L, c.h m n l * sampleAt (sent.getD n []) (i - shift - l)

theorem removeRow_late (c : Calibration) (sent : List (List ℂ)) (s : ℕ) (m K : ℕ) (hK : K ≤ c.N) (x : List ℂ)
    (hs : s ≤ x.length) :
    ∃ r, c.removeRow sent s m (List.range K) x = .ok r ∧ r.length = x.length ∧
      ∀ i < x.length, r.getD i 0 = x.getD i 0 - ∑ n ∈ Finset.range K, leak c sent s m n i := by
  induction K with
  | zero => exact ⟨x, rfl, rfl, by simp⟩
  | succ K ih =>
    obtain ⟨r, hr, hl, hv⟩ := ih (by omega)
    obtain ⟨q, hq, hql, hqv⟩ := removeFrom_late r (convolve c.L (c.h m K) (sent.getD K [])) s (by omega)
    refine ⟨q, ?_, by omega, fun i hi => ?_⟩
    · unfold Calibration.removeRow at hr ⊢
      rw [List.range_succ, List.foldlM_append, hr]
      simp only [bind, Except.bind, List.foldlM_cons, List.foldlM_nil, Calibration.removePair]
      rw [if_neg (by omega), hq]
      rfl
    · rw [hqv i (by omega), hv i hi, Finset.sum_range_succ, sampleAt_convolve]
      unfold leak
      ring

theorem rows_fold (f : ℕ → List ℂ → Except PyErr (List ℂ)) (K : ℕ) (rows : List (List ℂ)) (hK : K ≤ rows.length)
    (P : ℕ → List ℂ → List ℂ → Prop)
    (h : ∀ m < K, ∃ r, f m (rows.getD m []) = .ok r ∧ P m (rows.getD m []) r) :
    ∃ out, (List.range K).foldlM (fun (rows : List (List ℂ)) (m : ℕ) => do
      let p ← (.ok m : Except PyErr ℕ)
      match rows[p]? with
      | none => .ok rows
      | some x => do
        let x ← f m x
        .ok (rows.set p x)) rows = (.ok out : Except PyErr (List (List ℂ))) ∧ out.length = rows.length ∧
      (∀ m < K, P m (rows.getD m []) (out.getD m [])) ∧ ∀ m, K ≤ m → out.getD m [] = rows.getD m [] := by
  induction K with
  | zero => exact ⟨rows, rfl, rfl, by simp, fun _ _ => rfl⟩
  | succ K ih =>
    obtain ⟨out, ho, hl, h1, h2⟩ := ih (by omega) fun m hm => h m (by omega)
    obtain ⟨r, hr, hp⟩ := h K (by omega)
    have hk : K < out.length := by omega
    have e : out[K]? = some (rows.getD K []) := by
      rw [← h2 K le_rfl, List.getD_eq_getElem?_getD, List.getElem?_eq_getElem hk]
      rfl
    refine ⟨out.set K r, ?_, by simpa using hl, fun m hm => ?_, fun m hm => ?_⟩
    · rw [List.range_succ, List.foldlM_append, ho]
      simp only [bind, Except.bind, List.foldlM_cons, List.foldlM_nil, e, hr]
      rfl
    · rcases Nat.lt_or_ge m K with hm' | hm'
      · rw [List.getD_eq_getElem?_getD (l := out.set K r), List.getElem?_set_ne (by omega), ← List.getD_eq_getElem?_getD]
        exact h1 m hm'
      · have : m = K := by omega
        subst this
        rw [List.getD_eq_getElem?_getD (l := out.set m r), List.getElem?_set_self hk]
        exact hp
    · rw [List.getD_eq_getElem?_getD, List.getElem?_set_ne (by omega), ← List.getD_eq_getElem?_getD]
      exact h2 m (by omega)

/-- What is left after removal, for any number of transmit streams up to the response's. -/
theorem remove_eq (c : Calibration) (ht : c.transmit = none) (hr : c.receive = none) (tx rx : Sig) (hrate : tx.rate = rx.rate)
    (hcar : tx.carrier = rx.carrier) (hnum : 1 ≤ tx.num) (hN : min tx.rows.length c.M ≤ c.N) (s : ℕ)
    (hshift : pyRound ((c.delay - (tx.delay + rx.delay)) * rx.rate) = s) (hlen : ∀ x ∈ rx.rows, s ≤ x.length) :
    ∃ out, c.remove tx rx = .ok out ∧ out.rows.length = rx.rows.length ∧ out.rate = rx.rate ∧ out.carrier = rx.carrier ∧
      out.delay = rx.delay ∧
      (∀ m < min rx.rows.length c.M, (out.rows.getD m []).length = (rx.rows.getD m []).length ∧
        ∀ i < (rx.rows.getD m []).length, (out.rows.getD m []).getD i 0 = (rx.rows.getD m []).getD i 0 -
          ∑ n ∈ Finset.range (min tx.rows.length c.M), leak c tx.rows s m n i) := by
  have hrow : ∀ m < min rx.rows.length c.M, ∃ r,
      c.removeRow tx.rows s m (List.range (min tx.rows.length c.M)) (rx.rows.getD m []) = .ok r ∧
      (r.length = (rx.rows.getD m []).length ∧ ∀ i < (rx.rows.getD m []).length, r.getD i 0 = (rx.rows.getD m []).getD i 0 -
        ∑ n ∈ Finset.range (min tx.rows.length c.M), leak c tx.rows s m n i) := by
    intro m hm
    have hm' : m < rx.rows.length := by omega
    refine removeRow_late c tx.rows s m _ hN _ (hlen _ ?_)
    rw [List.getD_eq_getElem?_getD, List.getElem?_eq_getElem hm']
    exact List.getElem_mem hm'
  obtain ⟨out, ho, hl, h1, -⟩ := rows_fold (fun m x => c.removeRow tx.rows s m (List.range (min tx.rows.length c.M)) x)
    (min rx.rows.length c.M) rx.rows (by omega) (fun m x r => r.length = x.length ∧ ∀ i < x.length, r.getD i 0 = x.getD i 0 -
        ∑ n ∈ Finset.range (min tx.rows.length c.M), leak c tx.rows s m n i) hrow
  refine ⟨{ rx with rows := out }, ?_, hl, rfl, rfl, rfl, h1⟩
  unfold Calibration.remove
  rw [ht]
  simp only [select, bind, Except.bind, hrate, hcar, ne_eq, not_true_eq_false, if_false, hshift, Calibration.port, hr]
  rw [if_neg (by omega)]
  simp only [bind, Except.bind] at ho
  rw [ho]

/-- The leakage a device adds to what it receives: every transmit stream, filtered, `shift` samples late. -/
def leakage (N L : ℕ) (h : ℕ → ℕ → ℕ → ℂ) (sent : List (List ℂ)) (shift : ℤ) (m : ℕ) (i : ℤ) : ℂ :=
  ∑ n ∈ Finset.range N, ∑ l ∈ Finset.range L, h m n l * sampleAt (sent.getD n []) (i - shift - l)

/-- C110: of a reception that is what is wanted and the leakage of the transmission, what is wanted is left.  Missing: more
transmit ports than receive ports, receptions corrected by more than the delay of the leakage, selected ports. -/
theorem C110_remove_partial (c : Calibration) (ht : c.transmit = none) (hr : c.receive = none) (hMN : c.N ≤ c.M) (tx rx : Sig)
    (hrate : tx.rate = rx.rate) (hcar : tx.carrier = rx.carrier) (hnum : 1 ≤ tx.num) (hN : tx.rows.length = c.N) (s : ℕ)
    (hshift : pyRound ((c.delay - (tx.delay + rx.delay)) * rx.rate) = s) (hlen : ∀ x ∈ rx.rows, s ≤ x.length)
    (hM : rx.rows.length = c.M) (wanted : ℕ → ℕ → ℂ)
    (hrx : ∀ m < c.M, ∀ i < (rx.rows.getD m []).length,
      (rx.rows.getD m []).getD i 0 = wanted m i + leakage c.N c.L c.h tx.rows s m i) :
    ∃ out, c.remove tx rx = .ok out ∧ ∀ m < c.M, (out.rows.getD m []).length = (rx.rows.getD m []).length ∧
      ∀ i < (rx.rows.getD m []).length, (out.rows.getD m []).getD i 0 = wanted m i := by
  have hmin : min tx.rows.length c.M = c.N := by omega
  obtain ⟨out, ho, -, -, -, -, h⟩ := remove_eq c ht hr tx rx hrate hcar hnum (by omega) s hshift hlen
  refine ⟨out, ho, fun m hm => ?_⟩
  obtain ⟨h1, h2⟩ := h m (by omega)
  refine ⟨h1, fun i hi => ?_⟩
  rw [h2 i hi, hrx m hm i hi, hmin]
  unfold leakage leak
  ring

/-- C110 fails for more transmit ports than receive ports: the leakage of the last transmit ports is left. -/
theorem C110_streams_fails (c : Calibration) (ht : c.transmit = none) (hr : c.receive = none) (hMN : c.M < c.N) (tx rx : Sig)
    (hrate : tx.rate = rx.rate) (hcar : tx.carrier = rx.carrier) (hnum : 1 ≤ tx.num) (hN : tx.rows.length = c.N) (s : ℕ)
    (hshift : pyRound ((c.delay - (tx.delay + rx.delay)) * rx.rate) = s) (hlen : ∀ x ∈ rx.rows, s ≤ x.length)
    (hM : rx.rows.length = c.M) (wanted : ℕ → ℕ → ℂ)
    (hrx : ∀ m < c.M, ∀ i < (rx.rows.getD m []).length,
      (rx.rows.getD m []).getD i 0 = wanted m i + leakage c.N c.L c.h tx.rows s m i) :
    ∃ out, c.remove tx rx = .ok out ∧ ∀ m < c.M, ∀ i < (rx.rows.getD m []).length,
      (out.rows.getD m []).getD i 0 = wanted m i +
        ∑ n ∈ Finset.Ico c.M c.N, ∑ l ∈ Finset.range c.L, c.h m n l * sampleAt (tx.rows.getD n []) (i - s - l) := by
  have hmin : min tx.rows.length c.M = c.M := by omega
  obtain ⟨out, ho, -, -, -, -, h⟩ := remove_eq c ht hr tx rx hrate hcar hnum (by omega) s hshift hlen
  refine ⟨out, ho, fun m hm i hi => ?_⟩
  obtain ⟨-, h2⟩ := h m (by omega)
  rw [h2 i hi, hrx m hm i hi, hmin]
  unfold leakage leak
  rw [← Finset.sum_range_add_sum_Ico _ hMN.le]
  ring

/-- A prediction removed from a stream that was advanced by `k` samples more than the leakage is delayed. -/
theorem removeFrom_early (x y : List ℂ) (k : ℕ) (hk : 1 ≤ k) (hx : k ≤ x.length) (hy : k ≤ y.length) :
    ∃ r, removeFrom x (-(k : ℤ)) y = .ok r ∧ r.length = x.length ∧
      ∀ i < x.length, r.getD i 0 = x.getD i 0 - if i + k < min x.length y.length then y.getD (i + k) 0 else 0 := by
  set b := min x.length y.length - k with hb
  have e1 : min (-(k : ℤ) + y.length) ((x.length : ℤ) + -(k : ℤ)) = (b : ℕ) := by omega
  have e2 : min (x.length : ℤ) (y.length : ℤ) = ((b + k : ℕ) : ℤ) := by omega
  have hv : subtract (slice x 0 b) (slice y (-(-(k : ℤ))) ((b + k : ℕ) : ℤ)) =
      .ok (List.zipWith (· - ·) (x.take b) ((y.take (b + k)).drop k)) := by
    unfold subtract slice
    rw [neg_neg, bound_nonneg, bound_nonneg, show (0 : ℤ) = ((0 : ℕ) : ℤ) from rfl, bound_nonneg, bound_nonneg]
    have a1 : min b x.length = b := by omega
    have a2 : min k y.length = k := by omega
    have a3 : min (b + k) y.length = b + k := by omega
    rw [a1, a2, a3]
    simp only [Nat.zero_min, List.drop_zero]
    rw [if_pos (by simp; omega)]
  refine ⟨List.zipWith (· - ·) (x.take b) ((y.take (b + k)).drop k) ++ x.drop b, ?_, ?_, fun i hi => ?_⟩
  · unfold removeFrom
    rw [if_neg (by omega)]
    simp only [e1, e2, hv, bind, Except.bind]
    unfold assign
    rw [show (0 : ℤ) = ((0 : ℕ) : ℤ) from rfl, bound_nonneg, bound_nonneg]
    have a1 : min b x.length = b := by omega
    simp only [a1, Nat.zero_min, Nat.zero_max, List.take_zero, List.nil_append]
    rw [if_pos (by simp; omega)]
  · simp
    omega
  · have hzl : (List.zipWith (· - ·) (x.take b) ((y.take (b + k)).drop k)).length = b := by simp; omega
    simp only [List.getD_eq_getElem?_getD]
    rcases Nat.lt_or_ge i b with h2 | h2
    · rw [if_pos (by omega), List.getElem?_append_left (by omega), List.getElem?_zipWith]
      have q1 : (x.take b)[i]? = some (x[i]'hi) := by
        rw [List.getElem?_take_of_lt h2]
        simp [hi]
      have hy : i + k < y.length := by omega
      have q2 : ((y.take (b + k)).drop k)[i]? = some (y[i + k]'hy) := by
        rw [List.getElem?_drop, List.getElem?_take_of_lt (by omega), add_comm]
        simp [hy]
      rw [q1, q2]
      simp [hi, hy]
    · rw [if_neg (by omega), List.getElem?_append_right (by omega), List.getElem?_drop, hzl, show b + (i - b) = i by omega,
        sub_zero]

/-- C110 fails for receptions advanced by more than the leakage is delayed: of a prediction at least as long as the reception,
the last `k` samples are not removed. -/
theorem C110_early_fails (x y : List ℂ) (k : ℕ) (hk : 1 ≤ k) (hx : k ≤ x.length) (hy : x.length ≤ y.length) :
    ∃ r, removeFrom x (-(k : ℤ)) y = .ok r ∧
      (∀ i, i + k < x.length → r.getD i 0 = x.getD i 0 - sampleAt y ((i : ℤ) + k)) ∧
      ∀ i, x.length ≤ i + k → i < x.length → r.getD i 0 = x.getD i 0 := by
  obtain ⟨r, hr, -, h⟩ := removeFrom_early x y k hk hx (by omega)
  refine ⟨r, hr, fun i hi => ?_, fun i h1 h2 => ?_⟩
  · rw [h i (by omega), if_pos (by omega), sampleAt, if_pos (by omega)]
    congr 2
  · rw [h i h2, if_neg (by omega), sub_zero]

/-- C110 fails for leakage that arrives after the reception ended: nothing has to be removed, but `ValueError` is raised. -/
theorem C110_after_fails (x y : List ℂ) (s : ℕ) (hs : x.length < s) (hy : s - x.length + 2 ≤ y.length) :
    removeFrom x s y = .error .value := by
  unfold removeFrom
  rw [if_pos (by omega)]
  have e1 : min ((s : ℤ) + y.length) (x.length : ℤ) = (x.length : ℕ) := by omega
  have e2 : min ((x.length : ℤ) - s) (y.length : ℤ) = (x.length : ℤ) - s := by omega
  simp only [e1, e2, bind, Except.bind]
  have hx0 : (slice x s x.length).length = 0 := by
    unfold slice
    rw [bound_nonneg, bound_nonneg]
    simp
    omega
  have hy2 : (slice y 0 ((x.length : ℤ) - s)).length = y.length - (s - x.length) := by
    unfold slice
    have : bound y.length ((x.length : ℤ) - s) = y.length - (s - x.length) := by
      unfold bound
      rw [if_pos (by omega)]
      omega
    rw [this, show (0 : ℤ) = ((0 : ℕ) : ℤ) from rfl, bound_nonneg]
    simp
  unfold subtract
  rw [if_neg (by omega), if_neg (by omega), if_neg (by omega)]

example : removeFrom [1, 2] 3 [1, 1, 1, 1] = .error .value := C110_after_fails _ _ 3 (by simp) (by simp)

/-- C110: signals of different rates or carriers raise `ValueError`. -/
theorem C110_mismatch (c : Calibration) (ht : c.transmit = none) (tx rx : Sig) (h : tx.rate ≠ rx.rate ∨ tx.carrier ≠ rx.carrier) :
    c.remove tx rx = .error .value := by
  unfold Calibration.remove
  rw [ht]
  simp only [select, bind, Except.bind]
  by_cases h1 : tx.rate ≠ rx.rate
  · rw [if_pos h1]
  · rw [if_neg h1, if_pos (h.resolve_left h1)]

/-- C110: nothing is removed if nothing was transmitted. -/
theorem C110_silent (c : Calibration) (ht : c.transmit = none) (tx rx : Sig) (h1 : tx.rate = rx.rate) (h2 : tx.carrier = rx.carrier)
    (h : tx.num = 0) : c.remove tx rx = .ok rx := by
  unfold Calibration.remove
  rw [ht]
  simp [select, bind, Except.bind, h1, h2, h]

/-- C110: calibrations of invalid sampling rates or delays are rejected. -/
theorem C110_new (M N L : ℕ) (h : ℕ → ℕ → ℕ → ℂ) (rate delay : ℚ) (t r : Option (List ℕ)) :
    (rate ≤ 0 ∨ delay < 0 → new M N L h rate delay t r = .error .value) ∧
    (0 < rate → 0 ≤ delay → new M N L h rate delay t r = .ok ⟨M, N, L, h, rate, delay, t, r⟩) := by
  unfold new
  constructor
  · rintro (h1 | h1)
    · rw [if_pos h1]
    · split_ifs <;> rfl
  · intro h1 h2
    rw [if_neg (not_le.mpr h1), if_neg (not_lt.mpr h2)]

/-- C110: a stored and restored calibration is the same, but for the ports. -/
theorem C110_restore_partial (c : Calibration) (hr : 0 < c.rate) (hd : 0 ≤ c.delay) (h1 : c.transmit = none) (h2 : c.receive = none) :
    c.restore = .ok c := by
  unfold Calibration.restore
  rw [(C110_new _ _ _ _ _ _ _ _).2 hr hd]
  cases c
  simp only at h1 h2
  subst h1 h2
  rfl

/-- C110 fails for calibrations of selected ports: once restored, they are of the first ports. -/
theorem C110_restore_fails (c d : Calibration) (h : c.receive ≠ none) (hd : c.restore = .ok d) : d.receive = none ∧ d ≠ c := by
  have : d.receive = none := by
    unfold Calibration.restore new at hd
    split_ifs at hd
    cases hd
    rfl
  refine ⟨this, fun he => h (he ▸ this)⟩

/-! ## Prediction -/

theorem addRows_getD (a b : List ℂ) (h : a.length = b.length) (i : ℕ) : (addRows a b).getD i 0 = a.getD i 0 + b.getD i 0 := by
  unfold addRows
  simp only [List.getD_eq_getElem?_getD, List.getElem?_zipWith]
  by_cases hi : i < a.length
  · have hb : i < b.length := by omega
    simp [hi, hb]
  · have hb : ¬ i < b.length := by omega
    simp [hi, hb]

theorem convolve_length (L : ℕ) (h : ℕ → ℂ) (x : List ℂ) (hL : 1 ≤ L) (hx : 1 ≤ x.length) :
    (convolve L h x).length = x.length + L - 1 := by
  unfold convolve
  rw [if_neg (by rintro (h | h) <;> simp_all)]
  simp [add_comm]

theorem predict_row (c : Calibration) (tx : Sig) (hL : 1 ≤ c.L) (hn : 1 ≤ tx.num) (hx : ∀ x ∈ tx.rows, x.length = tx.num)
    (m K : ℕ) (hK : K ≤ tx.rows.length) (hN : K ≤ c.N) :
    ∃ r : List ℂ, (List.range K).foldlM (fun x n =>
        if c.N ≤ n then (.error .index : Except PyErr (List ℂ))
        else .ok (addRows x (convolve c.L (c.h m n) (tx.rows.getD n []))))
        (List.replicate (tx.num + c.L - 1) 0) = .ok r ∧ r.length = tx.num + c.L - 1 ∧
      ∀ i : ℕ, r.getD i 0 = ∑ n ∈ Finset.range K, leak c tx.rows 0 m n i := by
  induction K with
  | zero => 
    refine ⟨_, rfl, by simp, fun i => ?_⟩
    simp only [List.getD_eq_getElem?_getD, List.getElem?_replicate, Finset.range_zero, Finset.sum_empty]
    split_ifs <;> rfl
  | succ K ih =>
    obtain ⟨r, hr, hl, hv⟩ := ih (by omega) (by omega)
    have hk : K < tx.rows.length := by omega
    have hrow : (tx.rows.getD K []).length = tx.num := by
      rw [List.getD_eq_getElem?_getD, List.getElem?_eq_getElem hk]
      exact hx _ (List.getElem_mem hk)
    have hcl : (convolve c.L (c.h m K) (tx.rows.getD K [])).length = tx.num + c.L - 1 := by
      rw [convolve_length _ _ _ hL (by omega), hrow]
    refine ⟨addRows r (convolve c.L (c.h m K) (tx.rows.getD K [])), ?_, ?_, fun i => ?_⟩
    · rw [List.range_succ, List.foldlM_append, hr]
      simp only [bind, Except.bind, List.foldlM_cons, List.foldlM_nil]
      rw [if_neg (by omega)]
      rfl
    · rw [addRows, List.length_zipWith, hl, hcl, min_self]
    · rw [addRows_getD _ _ (by omega), hv i, Finset.sum_range_succ]
      congr 1
      have := sampleAt_convolve c.L (c.h m K) (tx.rows.getD K []) i
      rw [sampleAt, if_pos (by omega), Int.toNat_natCast] at this
      rw [this]
      unfold leak
      simp

/-- C110: the predicted leakage of a transmission is the sum of its streams, filtered. -/
theorem C110_predict_partial (c : Calibration) (ht : c.transmit = none) (tx : Sig) (hL : 1 ≤ c.L) (hn : 1 ≤ tx.num)
    (hx : ∀ x ∈ tx.rows, x.length = tx.num) (hN : tx.rows.length = c.N) :
    ∃ out, c.predict tx = .ok out ∧ out.rows.length = c.M ∧ out.num = tx.num + c.L - 1 ∧ out.rate = tx.rate ∧
      ∀ m < c.M, ∀ i : ℕ, (out.rows.getD m []).getD i 0 = leakage c.N c.L c.h tx.rows 0 m i := by
  choose r hr hl hv using fun m => predict_row c tx hL hn hx m tx.rows.length le_rfl hN.le
  have hm : ∀ ms : List ℕ, ms.mapM (fun m => (List.range tx.rows.length).foldlM (fun x n =>
        if c.N ≤ n then (.error .index : Except PyErr (List ℂ))
        else .ok (addRows x (convolve c.L (c.h m n) (tx.rows.getD n []))))
        (List.replicate (tx.num + c.L - 1) 0)) = .ok (ms.map r) := by
    intro ms
    induction ms with
    | nil => rfl
    | cons m ms ih =>
      rw [List.mapM_cons, hr m, ih]
      rfl
  refine ⟨⟨(List.range c.M).map r, tx.num + c.L - 1, tx.rate, tx.carrier, 0, tx.delay + c.delay⟩, ?_, by simp, rfl, rfl,
    fun m hmM i => ?_⟩
  · unfold Calibration.predict
    rw [ht]
    simp only [select, bind, Except.bind, hN, ne_eq, not_true_eq_false, if_false]
    have := hm (List.range c.M)
    rw [hN] at this
    rw [this]
  · have : ((List.range c.M).map r).getD m [] = r m := by
      rw [List.getD_eq_getElem?_getD, List.getElem?_map, List.getElem?_range hmM]
      rfl
    simp only [this]
    rw [hv m i, hN]
    rfl

/-- C110 fails for the delay of predictions: it is always zero, the delay is taken for the power of noise. -/
theorem C110_predict_delay_fails (c : Calibration) (tx out : Sig) (h : c.predict tx = .ok out) :
    out.delay = 0 ∧ out.noise = tx.delay + c.delay := by
  unfold Calibration.predict at h
  revert h
  cases select tx.rows c.transmit with
  | error e => intro h; cases h
  | ok sent =>
    intro h
    simp only [bind, Except.bind] at h
    split_ifs at h
    revert h
    generalize (List.mapM _ _ : Except PyErr (List (List ℂ))) = m
    cases m with
    | error e => intro h; cases h
    | ok l =>
      intro h
      cases h
      exact ⟨rfl, rfl⟩

/-- C110 fails for calibrations of selected transmit ports: as many rows as ports are selected, but all streams are predicted. -/
theorem C110_predict_ports_fails (c : Calibration) (hM : 1 ≤ c.M) (tx : Sig) (sent : List (List ℂ))
    (hs : select tx.rows c.transmit = .ok sent) (hN : sent.length = c.N) (hlt : c.N < tx.rows.length) :
    c.predict tx = .error .index := by
  have hf : ∀ m, (List.range tx.rows.length).foldlM (fun x n =>
        if c.N ≤ n then (.error .index : Except PyErr (List ℂ))
        else .ok (addRows x (convolve c.L (c.h m n) (tx.rows.getD n []))))
        (List.replicate (tx.num + c.L - 1) 0) = .error .index := by
    intro m
    have key : ∀ (ns : List ℕ) (x : List ℂ), (∃ n ∈ ns, c.N ≤ n) → ns.foldlM (fun x n =>
        if c.N ≤ n then (.error .index : Except PyErr (List ℂ))
        else .ok (addRows x (convolve c.L (c.h m n) (tx.rows.getD n [])))) x = .error .index := by
      intro ns
      induction ns with
      | nil => rintro x ⟨n, hn, -⟩; simp at hn
      | cons a ns ih =>
        rintro x ⟨n, hn, hc⟩
        rw [List.foldlM_cons]
        by_cases ha : c.N ≤ a
        · rw [if_pos ha]; rfl
        · rw [if_neg ha]
          simp only [bind, Except.bind]
          refine ih _ ⟨n, ?_, hc⟩
          rcases List.mem_cons.mp hn with rfl | h
          · exact absurd hc ha
          · exact h
    exact key _ _ ⟨c.N, by simpa using hlt, le_rfl⟩
  unfold Calibration.predict
  rw [hs]
  obtain ⟨k, hk⟩ : ∃ k, c.M = k + 1 := ⟨c.M - 1, by omega⟩
  simp only [bind, Except.bind, hN, ne_eq, not_true_eq_false, if_false]
  rw [hk, List.range_succ_eq_map, List.mapM_cons]
  have := hf 0
  simp only [bind, Except.bind] at this ⊢
  rw [this]

/-! ## Estimation -/

/-- `cf`, `leakage.py` 270: whether the number of samples is odd. -/
def parity (N : ℕ) : ℕ := N % 2

/-- The Zadoff-Chu sequence of probe `p`, `leakage.py` 270-279, at every sample: `np.tile` repeats it, 286. -/
def chu (N : ℕ) (p : ℕ) (i : ℤ) : ℂ := exp (-(Real.pi * I * (p : ℂ) * ((i * (i + parity N + 2) : ℤ) : ℂ) / N))

/-- What transmit port `n` sends for probe `p`, `leakage.py` 302-304: three periods. -/
def probe (N p n : ℕ) (port : ℕ) (i : ℤ) : ℂ := if port = n ∧ 0 ≤ i ∧ i < 3 * N then chu N p (i % N) else 0

/-- Spectra of probes, `leakage.py` 287-289. -/
def sentSpectrum (N p k : ℕ) : ℂ := fft .ortho N (fun (j : ℕ) => chu N p j) k

/-- Spectra of receptions, `leakage.py` 302-325, of the second of three periods.  `trigger` is what the device receives for what
it sends. -/
def receivedSpectrum (trigger : (ℕ → ℤ → ℂ) → ℕ → ℕ → ℂ) (N p m n k : ℕ) : ℂ :=
  fft .ortho N (fun (j : ℕ) => trigger (probe N p n) m (N + j)) k

/-- Least squares, `leakage.py` 393-411. -/
def leastSquares (trigger : (ℕ → ℤ → ℂ) → ℕ → ℕ → ℂ) (P N m n k : ℕ) : ℂ :=
  (∑ p ∈ Finset.range P, (starRingEnd ℂ) (sentSpectrum N (p + 1) k) * receivedSpectrum trigger N (p + 1) m n k) /
    ∑ p ∈ Finset.range P, (starRingEnd ℂ) (sentSpectrum N (p + 1) k) * sentSpectrum N (p + 1) k

/-- Slices kept by the filter of estimates, `leakage.py` 420-434, for peaks `scipy.signal.find_peaks` found and their widths,
rounded up. -/
def filtered (peaks : List (ℕ × ℕ)) (h : ℕ → ℂ) (l : ℕ) : ℂ :=
  if ∃ q ∈ peaks, q.1 - q.2 / 2 ≤ l ∧ l < 1 + (q.1 + q.2 / 2) then h l else 0

/-- `LeastSquaresEstimate`, `leakage.py` 328-444, of all ports; `delay` is that of the device's delay calibration, `peaks` what the
filter found, `none` if it is switched off or found nothing. -/
def estimate (trigger : (ℕ → ℤ → ℂ) → ℕ → ℕ → ℂ) (nr nt : ℕ) (rate delay : ℚ) (P N : ℤ) (peaks : Option (List (ℕ × ℕ))) :
    Except PyErr Calibration :=
  if P < 1 then .error .value
  else if N < 1 then .error .value
  else
    let response := fun m n l => ifft .backward N.toNat (leastSquares trigger P.toNat N.toNat m n) l
    let response := fun m n => match peaks with
      | none => response m n
      | some q => filtered q (response m n)
    new nr nt N.toNat response rate delay none none

/-- A device that leaks: receive port `m` hears every transmit port `n < nt` filtered by `h m n`, of `L` samples. -/
def leaky (nt L : ℕ) (h : ℕ → ℕ → ℕ → ℂ) (w : ℕ → ℤ → ℂ) (m i : ℕ) : ℂ :=
  ∑ n ∈ Finset.range nt, ∑ l ∈ Finset.range L, h m n l * w n ((i : ℤ) - l)

theorem shift_one (N : ℕ) (g : ℤ → ℂ) (hg : ∀ i, g (i + N) = g i) :
    ∑ j ∈ Finset.range N, g ((j : ℤ) + 1) = ∑ j ∈ Finset.range N, g j := by
  have h1 := Finset.sum_range_succ' (fun j : ℕ => g j) N
  have h2 := Finset.sum_range_succ (fun j : ℕ => g j) N
  have h3 : g (N : ℤ) = g 0 := by rw [← hg 0, zero_add]
  rw [h2] at h1
  push_cast at h1
  rw [h3] at h1
  exact (add_right_cancel h1).symm

theorem shift_many (N : ℕ) (g : ℤ → ℂ) (hg : ∀ i, g (i + N) = g i) (l : ℕ) :
    ∑ j ∈ Finset.range N, g ((j : ℤ) - l) = ∑ j ∈ Finset.range N, g j := by
  induction l with
  | zero => simp
  | succ l ih =>
    rw [← ih, ← shift_one N (fun i => g (i - (l + 1 : ℕ))) (fun i => by
      show g (i + N - (l + 1 : ℕ)) = g (i - (l + 1 : ℕ))
      rw [← hg (i - (l + 1 : ℕ))]; congr 1; ring)]
    refine Finset.sum_congr rfl fun j _ => ?_
    show g _ = g _
    congr 1
    push_cast
    ring

theorem chu_periodic (N : ℕ) (hN : 1 ≤ N) (p : ℕ) (i : ℤ) : chu N p (i + N) = chu N p i := by
  have hN0 : (N : ℂ) ≠ 0 := by exact_mod_cast (by omega : N ≠ 0)
  obtain ⟨q, hq⟩ : ∃ q : ℕ, N + parity N = 2 * q := ⟨(N + N % 2) / 2, by unfold parity; omega⟩
  have hqc : (N : ℂ) + (parity N : ℂ) = 2 * q := by exact_mod_cast hq
  unfold chu
  rw [Complex.exp_eq_exp_iff_exists_int]
  refine ⟨-(p * (i + q + 1)), ?_⟩
  push_cast
  have h2 : (parity N : ℂ) = 2 * q - N := by rw [← hqc]; ring
  rw [h2]
  field_simp
  ring

theorem chu_mod (N : ℕ) (hN : 1 ≤ N) (p : ℕ) (i : ℤ) : chu N p (i % N) = chu N p i := by
  have hper : Function.Periodic (chu N p) (N : ℤ) := chu_periodic N hN p
  have h := hper.int_mul (i / N) (i % N)
  rw [← h]
  congr 1
  have := Int.emod_add_mul_ediv i N
  simp only [Int.cast_id]
  linarith

/-- A tone of the transform. -/
def tone (N k : ℕ) (i : ℤ) : ℂ := exp (-(2 * Real.pi * I * k * (i : ℂ) / N))

theorem tone_add (N k : ℕ) (i j : ℤ) : tone N k (i + j) = tone N k i * tone N k j := by
  unfold tone
  rw [← Complex.exp_add]
  congr 1
  push_cast
  ring

theorem tone_periodic (N : ℕ) (hN : 1 ≤ N) (k : ℕ) (i : ℤ) : tone N k (i + N) = tone N k i := by
  have hN0 : (N : ℂ) ≠ 0 := by exact_mod_cast (by omega : N ≠ 0)
  unfold tone
  rw [Complex.exp_eq_exp_iff_exists_int]
  refine ⟨-k, ?_⟩
  push_cast
  field_simp
  ring

/-- The spectrum received is the spectrum sent times the frequency response. -/
theorem received_eq (nt L : ℕ) (h : ℕ → ℕ → ℕ → ℂ) (N : ℕ) (hN : 1 ≤ N) (hL : L ≤ N + 1) (p m n k : ℕ) (hn : n < nt) :
    receivedSpectrum (leaky nt L h) N p m n k =
      sentSpectrum N p k * ∑ l ∈ Finset.range L, h m n l * tone N k l := by
  have hsent : ∀ j < N, leaky nt L h (probe N p n) m (N + j) = ∑ l ∈ Finset.range L, h m n l * chu N p ((j : ℤ) - l) := by
    intro j hj
    unfold leaky
    rw [Finset.sum_eq_single n]
    · refine Finset.sum_congr rfl fun l hl => ?_
      have hl' : l < L := by simpa using hl
      unfold probe
      rw [if_pos ⟨rfl, by push_cast; omega, by push_cast; omega⟩, chu_mod N hN, ← chu_periodic N hN p ((j : ℤ) - l)]
      congr 2
      push_cast
      ring
    · intro n' _ hne
      refine Finset.sum_eq_zero fun l _ => ?_
      unfold probe
      rw [if_neg (by rintro ⟨h, -⟩; exact hne h), mul_zero]
    · intro hc
      exact absurd (Finset.mem_range.mpr hn) hc
  unfold receivedSpectrum sentSpectrum fft
  rw [mul_assoc (Norm.fwd N .ortho)]
  congr 1
  have e : ∑ j ∈ Finset.range N, leaky nt L h (probe N p n) m (N + j) * exp (-(2 * Real.pi * I * k * j / N)) =
      ∑ j ∈ Finset.range N, ∑ l ∈ Finset.range L, h m n l * tone N k l * (chu N p ((j : ℤ) - l) * tone N k ((j : ℤ) - l)) := by
    refine Finset.sum_congr rfl fun j hj => ?_
    rw [hsent j (by simpa using hj), Finset.sum_mul]
    refine Finset.sum_congr rfl fun l _ => ?_
    have : exp (-(2 * Real.pi * I * k * j / N)) = tone N k l * tone N k ((j : ℤ) - l) := by
      rw [← tone_add]
      unfold tone
      congr 1
      push_cast
      ring
    rw [this]
    ring
  rw [e, Finset.sum_comm]
  have e2 : ∀ l, ∑ j ∈ Finset.range N, h m n l * tone N k l * (chu N p ((j : ℤ) - l) * tone N k ((j : ℤ) - l)) =
      h m n l * tone N k l * ∑ j ∈ Finset.range N, chu N p j * tone N k j := by
    intro l
    rw [← Finset.mul_sum, shift_many N (fun i => chu N p i * tone N k i) (fun i => by
      show chu N p (i + N) * tone N k (i + N) = _
      rw [chu_periodic N hN, tone_periodic N hN])]
  simp only [e2]
  rw [← Finset.sum_mul, mul_comm]
  congr 1

/-- Spectra of the first probe are of the same magnitude everywhere. -/
theorem norm_spectrum (N : ℕ) (hN : 1 ≤ N) (k : ℕ) : ‖sentSpectrum N 1 (k + 1)‖ = ‖sentSpectrum N 1 k‖ := by
  have hN0 : (N : ℂ) ≠ 0 := by exact_mod_cast (by omega : N ≠ 0)
  have key : ∑ j ∈ Finset.range N, chu N 1 j * tone N (k + 1) j =
      exp ((Real.pi * (3 + parity N + 2 * k) / N : ℝ) * I) * ∑ j ∈ Finset.range N, chu N 1 j * tone N k j := by
    rw [← shift_one N (fun i => chu N 1 i * tone N k i) (fun i => by
      show chu N 1 (i + N) * tone N k (i + N) = _
      rw [chu_periodic N hN, tone_periodic N hN]), Finset.mul_sum]
    refine Finset.sum_congr rfl fun j _ => ?_
    unfold chu tone
    rw [← Complex.exp_add, ← Complex.exp_add, ← Complex.exp_add]
    congr 1
    push_cast
    field_simp
    ring
  have h1 : ∀ k, sentSpectrum N 1 k = Norm.fwd N .ortho * ∑ j ∈ Finset.range N, chu N 1 j * tone N k j := by
    intro k
    unfold sentSpectrum fft tone
    congr 1
  rw [h1, h1, key, norm_mul, norm_mul, norm_mul, Complex.norm_exp_ofReal_mul_I, one_mul]

/-- The spectrum of the first probe vanishes nowhere. -/
theorem spectrum_ne_zero (N : ℕ) (hN : 1 ≤ N) (k : ℕ) : sentSpectrum N 1 k ≠ 0 := by
  intro h
  have hall : ∀ j, ‖sentSpectrum N 1 j‖ = ‖sentSpectrum N 1 0‖ := by
    intro j
    induction j with
    | zero => rfl
    | succ j ih => rw [norm_spectrum N hN, ih]
  have h0 : ‖sentSpectrum N 1 0‖ = 0 := by rw [← hall k, h, norm_zero]
  have hz : ∀ j, fft .ortho N (fun (j : ℕ) => chu N 1 j) j = 0 := fun j => norm_eq_zero.mp ((hall j).trans h0)
  have := ifft_fft .ortho N (fun (j : ℕ) => chu N 1 j) 0 (by omega)
  have hz' : fft .ortho N (fun (j : ℕ) => chu N 1 j) = fun _ => 0 := funext hz
  rw [hz'] at this
  simp [ifft, chu] at this

/-- C110: least squares find the response of a leaking device exactly, for every number of probes, if the response is not longer
than the wavelet. -/
theorem C110_estimate_partial (nr nt L : ℕ) (h : ℕ → ℕ → ℕ → ℂ) (rate delay : ℚ) (hr : 0 < rate) (hd : 0 ≤ delay) (P N : ℕ)
    (hP : 1 ≤ P) (hN : 1 ≤ N) (hL : L ≤ N) :
    ∃ c, estimate (leaky nt L h) nr nt rate delay P N none = .ok c ∧ c.M = nr ∧ c.N = nt ∧ c.L = N ∧ c.rate = rate ∧
      c.delay = delay ∧ c.transmit = none ∧ c.receive = none ∧
      ∀ m, ∀ n < nt, ∀ l < N, c.h m n l = if l < L then h m n l else 0 := by
  refine ⟨⟨nr, nt, N, fun m n l => ifft .backward N (leastSquares (leaky nt L h) P N m n) l, rate, delay, none, none⟩, ?_,
    rfl, rfl, rfl, rfl, rfl, rfl, rfl, ?_⟩
  · unfold estimate
    rw [if_neg (by omega), if_neg (by omega)]
    exact (C110_new _ _ _ _ _ _ _ _).2 hr hd
  · intro m n hn l hl
    have hden : ∀ k, (∑ p ∈ Finset.range P, (starRingEnd ℂ) (sentSpectrum N (p + 1) k) * sentSpectrum N (p + 1) k) ≠ 0 := by
      intro k
      have e : ∑ p ∈ Finset.range P, (starRingEnd ℂ) (sentSpectrum N (p + 1) k) * sentSpectrum N (p + 1) k =
          ((∑ p ∈ Finset.range P, Complex.normSq (sentSpectrum N (p + 1) k) : ℝ) : ℂ) := by
        push_cast
        refine Finset.sum_congr rfl fun p _ => ?_
        rw [mul_comm, Complex.mul_conj]
      rw [e]
      have hpos : 0 < ∑ p ∈ Finset.range P, Complex.normSq (sentSpectrum N (p + 1) k) := by
        refine Finset.sum_pos' (fun p _ => Complex.normSq_nonneg _) ⟨0, by simp; omega, ?_⟩
        rw [Complex.normSq_pos]
        exact spectrum_ne_zero N hN k
      exact_mod_cast hpos.ne'
    have hls : leastSquares (leaky nt L h) P N m n = fft .backward N (fun j => if j < L then h m n j else 0) := by
      funext k
      unfold leastSquares
      rw [div_eq_iff (hden k), Finset.mul_sum]
      refine Finset.sum_congr rfl fun p _ => ?_
      rw [received_eq nt L h N hN (by omega) (p + 1) m n k hn]
      have : fft .backward N (fun j => if j < L then h m n j else 0) k = ∑ l ∈ Finset.range L, h m n l * tone N k l := by
        unfold fft Norm.fwd
        rw [one_mul]
        have hsub : Finset.range L ⊆ Finset.range N := Finset.range_subset_range.mpr hL
        rw [← Finset.sum_subset hsub]
        · refine Finset.sum_congr rfl fun l hl => ?_
          show (if l < L then h m n l else 0) * _ = _
          rw [if_pos (by simpa using hl)]
          unfold tone
          push_cast
          rfl
        · intro l _ hl
          show (if l < L then h m n l else 0) * _ = _
          rw [if_neg (by simpa using hl), zero_mul]
      rw [this]
      ring
    show ifft .backward N (leastSquares (leaky nt L h) P N m n) l = _
    rw [hls]
    exact ifft_fft .backward N _ l hl

/-- C110: numbers of probes or samples less than one raise `ValueError`. -/
theorem C110_estimate_errors (trigger : (ℕ → ℤ → ℂ) → ℕ → ℕ → ℂ) (nr nt : ℕ) (rate delay : ℚ) (P N : ℤ)
    (peaks : Option (List (ℕ × ℕ))) (h : P < 1 ∨ N < 1) : estimate trigger nr nt rate delay P N peaks = .error .value := by
  unfold estimate
  rcases h with h | h
  · rw [if_pos h]
  · split_ifs <;> rfl

/-- C110 fails for devices with a negative delay calibration: they cannot be calibrated for leakage. -/
theorem C110_estimate_delay_fails (trigger : (ℕ → ℤ → ℂ) → ℕ → ℕ → ℂ) (nr nt : ℕ) (rate delay : ℚ) (hd : delay < 0) (P N : ℤ)
    (peaks : Option (List (ℕ × ℕ))) : estimate trigger nr nt rate delay P N peaks = .error .value := by
  unfold estimate
  split_ifs
  · rfl
  · rfl
  · exact (C110_new _ _ _ _ _ _ _ _).1 (Or.inr hd)

/-- C110 fails for the filter of estimates, by default: `scipy.signal.find_peaks` never finds the first sample, so leakage without
delay is dropped, however strong, if any peak is found elsewhere. -/
theorem C110_filter_fails (peaks : List (ℕ × ℕ)) (hp : ∀ q ∈ peaks, q.2 / 2 < q.1) (h : ℕ → ℂ) (h0 : h 0 ≠ 0) :
    filtered peaks h 0 = 0 ∧ filtered peaks h 0 ≠ h 0 := by
  have : filtered peaks h 0 = 0 := by
    unfold filtered
    rw [if_neg]
    rintro ⟨q, hq, h1, -⟩
    have := hp q hq
    omega
  exact ⟨this, this ▸ h0.symm⟩

/-- Peak at sample two, three quarters of its height two samples wide. -/
example : filtered [(2, 2)] (fun l => if l = 0 then 1 else if l = 2 then 1 / 2 else 0) 0 = 0 :=
  (C110_filter_fails _ (by simp) _ (by simp)).1

theorem leakage_pad (nt L N : ℕ) (hL : L ≤ N) (h g : ℕ → ℕ → ℕ → ℂ) (m : ℕ)
    (hg : ∀ n < nt, ∀ l < N, g m n l = if l < L then h m n l else 0) (sent : List (List ℂ)) (shift i : ℤ) :
    leakage nt N g sent shift m i = leakage nt L h sent shift m i := by
  unfold leakage
  refine Finset.sum_congr rfl fun n hn => ?_
  rw [← Finset.sum_subset (Finset.range_subset_range.mpr hL)]
  · refine Finset.sum_congr rfl fun l hl => ?_
    rw [hg n (by simpa using hn) l (by simp at hl; omega), if_pos (by simpa using hl)]
  · intro l hl hl'
    rw [hg n (by simpa using hn) l (by simpa using hl), if_neg (by simpa using hl'), zero_mul]

/-- C110: a device that leaks, calibrated by least squares without the filter, receives what is wanted whatever it transmits: signals
are those of a device that reports the delay it corrects. -/
theorem C110_cancel_partial (nr nt L : ℕ) (h : ℕ → ℕ → ℕ → ℂ) (rate delay : ℚ) (hr : 0 < rate) (hd : 0 ≤ delay) (P N : ℕ)
    (hP : 1 ≤ P) (hN : 1 ≤ N) (hL : L ≤ N) (hports : nt ≤ nr) (tx rx : Sig) (hrate : tx.rate = rx.rate)
    (hcar : tx.carrier = rx.carrier) (hnum : 1 ≤ tx.num) (htx : tx.rows.length = nt) (hrx : rx.rows.length = nr)
    (hdelay : tx.delay + rx.delay = delay) (wanted : ℕ → ℕ → ℂ)
    (hw : ∀ m < nr, ∀ i < (rx.rows.getD m []).length,
      (rx.rows.getD m []).getD i 0 = wanted m i + leakage nt L h tx.rows 0 m i) :
    ∃ c out, estimate (leaky nt L h) nr nt rate delay P N none = .ok c ∧ c.remove tx rx = .ok out ∧
      ∀ m < nr, ∀ i < (rx.rows.getD m []).length, (out.rows.getD m []).getD i 0 = wanted m i := by
  obtain ⟨c, hc, hM, hNt, hLN, -, hdel, ht, hrc, hh⟩ := C110_estimate_partial nr nt L h rate delay hr hd P N hP hN hL
  obtain ⟨out, ho, hv⟩ := C110_remove_partial c ht hrc (by omega) tx rx hrate hcar hnum (by omega) 0
    (by rw [hdel, hdelay]; simp [Verif.Signal.pyRound_zero]) (by simp) (by omega) wanted (by
      intro m hm i hi
      rw [hw m (by omega) i hi]
      congr 1
      rw [hNt, hLN]
      exact (leakage_pad nt L N hL h c.h m (hh m) tx.rows 0 i).symm)
  exact ⟨c, out, hc, ho, fun m hm i hi => (hv m (by omega)).2 i hi⟩

/-- C110 fails for devices that have a delay calibration, but do not report a delay: the estimated response includes the delay,
which is added once more, so that the leakage is left and a late copy of it is subtracted. -/
theorem C110_delay_fails (nr nt L : ℕ) (h : ℕ → ℕ → ℕ → ℂ) (rate : ℚ) (hr : 0 < rate) (D : ℕ) (P N : ℕ)
    (hP : 1 ≤ P) (hN : 1 ≤ N) (hL : L ≤ N) (hports : nt ≤ nr) (tx rx : Sig) (hrate : tx.rate = rate) (hrate' : rx.rate = rate)
    (hcar : tx.carrier = rx.carrier) (hnum : 1 ≤ tx.num) (htx : tx.rows.length = nt) (hrx : rx.rows.length = nr)
    (hdelay : tx.delay + rx.delay = 0) (hlen : ∀ x ∈ rx.rows, D ≤ x.length) (wanted : ℕ → ℕ → ℂ)
    (hw : ∀ m < nr, ∀ i < (rx.rows.getD m []).length,
      (rx.rows.getD m []).getD i 0 = wanted m i + leakage nt L h tx.rows 0 m i) :
    ∃ c out, estimate (leaky nt L h) nr nt rate (D / rate) P N none = .ok c ∧ c.remove tx rx = .ok out ∧
      ∀ m < nr, ∀ i < (rx.rows.getD m []).length, (out.rows.getD m []).getD i 0 =
        wanted m i + leakage nt L h tx.rows 0 m i - leakage nt L h tx.rows D m i := by
  obtain ⟨c, hc, hM, hNt, hLN, -, hdel, ht, hrc, hh⟩ :=
    C110_estimate_partial nr nt L h rate (D / rate) hr (by positivity) P N hP hN hL
  have hround : pyRound ((c.delay - (tx.delay + rx.delay)) * rx.rate) = (D : ℕ) := by
    rw [hdel, hdelay, hrate', sub_zero, div_mul_cancel₀ _ hr.ne']
    unfold pyRound
    simp
  obtain ⟨out, ho, -, -, -, -, hv⟩ := remove_eq c ht hrc tx rx (by rw [hrate, hrate']) hcar hnum (by omega) D hround hlen
  refine ⟨c, out, hc, ho, fun m hm i hi => ?_⟩
  rw [(hv m (by omega)).2 i hi, hw m hm i hi]
  congr 1
  rw [← leakage_pad nt L N hL h c.h m (hh m) tx.rows D i]
  unfold leakage leak
  rw [show min tx.rows.length c.M = nt by omega, hLN]

/-- A device with a port each, whose transmission leaks at half the amplitude: calibrated, it receives seven and eight. -/
example : ∃ c out, estimate (leaky 1 1 fun _ _ _ => 1 / 2) 1 1 1 0 (7 : ℕ) (5 : ℕ) none = .ok c ∧
    c.remove ⟨[[2, 4]], 2, 1, 0, 0, 0⟩ ⟨[[8, 10]], 2, 1, 0, 0, 0⟩ = .ok out ∧
    ∀ m < 1, ∀ i < (([[8, 10]] : List (List ℂ)).getD m []).length, (out.rows.getD m []).getD i 0 = (i : ℂ) + 7 := by
  refine C110_cancel_partial 1 1 1 _ 1 0 one_pos le_rfl 7 5 (by norm_num) (by norm_num) (by norm_num) le_rfl
    ⟨[[2, 4]], 2, 1, 0, 0, 0⟩ ⟨[[8, 10]], 2, 1, 0, 0, 0⟩ rfl rfl (by norm_num) rfl rfl (by norm_num) (fun _ i => (i : ℂ) + 7) ?_
  intro m hm i hi
  have hm0 : m = 0 := by omega
  subst hm0
  have hi2 : i < 2 := by simpa using hi
  interval_cases i
  · norm_num [leakage, sampleAt]
  · norm_num [leakage, sampleAt]

/-- Two transmit ports and a receive port: the second port leaks. -/
example : ∃ out, (⟨1, 2, 1, fun _ _ _ => 1, 1, 0, none, none⟩ : Calibration).remove ⟨[[1], [1]], 1, 1, 0, 0, 0⟩ ⟨[[7]], 1, 1, 0, 0, 0⟩ = .ok out ∧
    (out.rows.getD 0 []).getD 0 0 = 6 := by
  obtain ⟨out, ho, h⟩ := C110_streams_fails ⟨1, 2, 1, fun _ _ _ => 1, 1, 0, none, none⟩ rfl rfl (by norm_num) ⟨[[1], [1]], 1, 1, 0, 0, 0⟩
    ⟨[[7]], 1, 1, 0, 0, 0⟩ rfl rfl (by norm_num) rfl 0 (by norm_num [Verif.Signal.pyRound_zero]) (by simp) rfl (fun _ _ => 5) (by
      intro m hm i hi
      have hm0 : m = 0 := by simpa using hm
      subst hm0
      have hi0 : i = 0 := by simpa using hi
      subst hi0
      norm_num [leakage, sampleAt, Finset.sum_range_succ])
  refine ⟨out, ho, ?_⟩
  rw [h 0 (by norm_num) 0 (by simp)]
  norm_num [sampleAt, Finset.sum_Ico_succ_top]

end

end Verif.HwLeakage
