import Verif.Sim.Leakage
import Mathlib.LinearAlgebra.Matrix.NonsingularInverse

/-!
# C86: mutual coupling of the antennas of a device

`hermespy/simulation/coupling/`.  Elementwise powers of impedances may be infinite or undefined, so that transmissions
are modelled over numbers with infinities and NaN; otherwise numbers are real and complex numbers.
-/

namespace Verif.SimDev

open Verif.Signal (Arr)

/-! ### Floating point numbers with infinities -/

/-- IEEE 754 numbers without rounding. -/
inductive Fl where
  | num (x : ℝ)
  | inf
  | ninf
  | nan

noncomputable def Fl.add : Fl → Fl → Fl
  | .num a, .num b => .num (a + b)
  | .nan, _ => .nan
  | _, .nan => .nan
  | .inf, .ninf => .nan
  | .ninf, .inf => .nan
  | .inf, _ => .inf
  | _, .inf => .inf
  | .ninf, _ => .ninf
  | _, .ninf => .ninf

noncomputable def Fl.neg : Fl → Fl
  | .num a => .num (-a)
  | .inf => .ninf
  | .ninf => .inf
  | .nan => .nan

noncomputable def Fl.mul : Fl → Fl → Fl
  | .num a, .num b => .num (a * b)
  | .nan, _ => .nan
  | _, .nan => .nan
  | .num a, .inf => if a = 0 then .nan else if 0 < a then .inf else .ninf
  | .num a, .ninf => if a = 0 then .nan else if 0 < a then .ninf else .inf
  | .inf, .num a => if a = 0 then .nan else if 0 < a then .inf else .ninf
  | .ninf, .num a => if a = 0 then .nan else if 0 < a then .ninf else .inf
  | .inf, .inf => .inf
  | .ninf, .ninf => .inf
  | .inf, .ninf => .ninf
  | .ninf, .inf => .ninf

/-- `x ** -0.5`. -/
noncomputable def invRoot (x : ℝ) : Fl := if x = 0 then .inf else if x < 0 then .nan else .num (1 / √x)

/-- `x ** 0.5`. -/
noncomputable def root (x : ℝ) : Fl := if x < 0 then .nan else .num √x

/-- Sum of `n` numbers, as in the products of matrices. -/
noncomputable def flSum (f : ℕ → Fl) : ℕ → Fl
  | 0 => .num 0
  | n + 1 => (flSum f n).add (f n)

/-- Complex numbers. -/
structure Cx where
  re : Fl
  im : Fl

/-- Product of a real coefficient, converted to a complex number, and a sample. -/
noncomputable def Cx.scale (a : Fl) (x : ℂ) : Cx :=
  ⟨(a.mul (.num x.re)).add ((Fl.num 0).mul (.num x.im)).neg, (a.mul (.num x.im)).add ((Fl.num 0).mul (.num x.re))⟩

/-- `ImpedanceCoupling`: impedances and correlations, none being the identity.  Transmit correlations are real. -/
structure Impedance where
  txImpedance : Option (ℕ → ℕ → ℂ)
  txCorrelation : Option (ℕ → ℕ → ℝ)

/-- Real parts of the transmit impedance, `simulation/coupling/impedance.py` 170-174 and 181. -/
noncomputable def Impedance.zRe (c : Impedance) (i k : ℕ) : ℝ :=
  match c.txImpedance with
  | none => if i = k then 1 else 0
  | some z => (z i k).re

/-- Transmit correlation, lines 175-179. -/
noncomputable def Impedance.corr (c : Impedance) (k j : ℕ) : ℝ :=
  match c.txCorrelation with
  | none => if k = j then 1 else 0
  | some r => r k j

/-- `transmit_coupling`, line 181, for `n` antennas: the powers are those of the elements. -/
noncomputable def Impedance.txCoupling (c : Impedance) (n i j : ℕ) : Fl :=
  flSum (fun k => (invRoot (c.zRe i k)).mul (root (c.corr k j))) n

/-- Sample `k` of stream `i` of a transmitted block, lines 182-186. -/
noncomputable def Impedance.transmit (c : Impedance) (n : ℕ) (b : Arr) (i k : ℕ) : Cx :=
  ⟨flSum (fun j => (Cx.scale (c.txCoupling n i j) (b.x j k)).re) n,
    flSum (fun j => (Cx.scale (c.txCoupling n i j) (b.x j k)).im) n⟩

/-- The complex number of a sample, if both parts are numbers. -/
def Cx.value : Cx → Option (ℝ × ℝ)
  | ⟨.num a, .num b⟩ => some (a, b)
  | _ => none

theorem add_nan (a : Fl) : a.add .nan = .nan := by cases a <;> rfl
theorem nan_add (a : Fl) : Fl.add .nan a = .nan := by cases a <;> rfl
theorem nan_mul (a : Fl) : Fl.mul .nan a = .nan := by cases a <;> rfl

theorem flSum_nan (f : ℕ → Fl) (n k : ℕ) (hk : k < n) (h : f k = .nan) : flSum f n = .nan := by
  induction n with
  | zero => omega
  | succ n ih =>
    by_cases e : k = n
    · subst e; simp [flSum, h, add_nan]
    · simp [flSum, ih (by omega), nan_add]

theorem flSum_num (f : ℕ → Fl) (g : ℕ → ℝ) (n : ℕ) (h : ∀ k, k < n → f k = .num (g k)) :
    flSum f n = .num (∑ k ∈ Finset.range n, g k) := by
  induction n with
  | zero => simp [flSum]
  | succ n ih =>
    rw [flSum, ih fun k hk => h k (by omega), h n (by omega), Finset.sum_range_succ]
    rfl

theorem txCoupling_nan (c : Impedance) (hc : c.txCorrelation = none) (n i k j : ℕ) (hk : k < n) (hz : c.zRe i k = 0)
    (hj : j ≠ k) : c.txCoupling n i j = .nan := by
  refine flSum_nan _ n k hk ?_
  have : c.corr k j = 0 := by simp [Impedance.corr, hc, Ne.symm hj]
  simp [hz, this, invRoot, root, Fl.mul]

/-- C86 fails for antennas without mutual impedance: if the real part of a mutual impedance of an antenna is zero and the
antennas are not correlated, every sample transmitted by the antenna is NaN, whatever the samples are. -/
theorem C86_transmit_uncoupled_fails (c : Impedance) (hc : c.txCorrelation = none) (n i k : ℕ) (hi : i < n) (hk : k < n)
    (hik : i ≠ k) (hz : c.zRe i k = 0) (b : Arr) (t : ℕ) : c.transmit n b i t = ⟨.nan, .nan⟩ := by
  have h := txCoupling_nan c hc n i k i hk hz hik
  unfold Impedance.transmit
  rw [flSum_nan _ n i hi (by simp [Cx.scale, h, nan_mul, nan_add]),
    flSum_nan _ n i hi (by simp [Cx.scale, h, nan_mul, nan_add])]

/-- C86 fails for the default configuration: the identity is documented as impedance and correlation, but with two
antennas or more every transmitted sample is NaN. -/
theorem C86_transmit_default_fails (n : ℕ) (hn : 2 ≤ n) (b : Arr) (i : ℕ) (hi : i < n) (t : ℕ) :
    (⟨none, none⟩ : Impedance).transmit n b i t = ⟨.nan, .nan⟩ := by
  by_cases e : i = 0
  · subst e
    exact C86_transmit_uncoupled_fails _ rfl n 0 1 hi (by omega) (by omega) (by simp [Impedance.zRe]) b t
  · exact C86_transmit_uncoupled_fails _ rfl n i 0 hi (by omega) e (by simp [Impedance.zRe, e]) b t

theorem txCoupling_num (c : Impedance) (n i : ℕ) (hz : ∀ k, k < n → 0 < c.zRe i k)
    (hr : ∀ k j, k < n → j < n → 0 ≤ c.corr k j) (j : ℕ) (hj : j < n) :
    c.txCoupling n i j = .num (∑ k ∈ Finset.range n, √(c.corr k j) / √(c.zRe i k)) := by
  refine flSum_num _ _ n fun k hk => ?_
  simp only [invRoot, root, (hz k hk).ne', not_lt.mpr (hz k hk).le, not_lt.mpr (hr k j hk hj), if_false, Fl.mul]
  congr 1; ring

/-- C86: if the real parts of all impedances are positive and no correlation is negative, the transmitted samples are
the product of the elementwise powers and the samples.  Missing for the full claim: other impedances, see
`C86_transmit_uncoupled_fails`, and powers of matrices, see `C86_transmit_root_fails`. -/
theorem C86_transmit_partial (c : Impedance) (n i : ℕ) (hz : ∀ k, k < n → 0 < c.zRe i k)
    (hr : ∀ k j, k < n → j < n → 0 ≤ c.corr k j) (b : Arr) (t : ℕ) :
    (c.transmit n b i t).value = some
      (∑ j ∈ Finset.range n, (∑ k ∈ Finset.range n, √(c.corr k j) / √(c.zRe i k)) * (b.x j t).re,
       ∑ j ∈ Finset.range n, (∑ k ∈ Finset.range n, √(c.corr k j) / √(c.zRe i k)) * (b.x j t).im) := by
  have hcp := txCoupling_num c n i hz hr
  unfold Impedance.transmit
  rw [flSum_num _ (fun j => (∑ k ∈ Finset.range n, √(c.corr k j) / √(c.zRe i k)) * (b.x j t).re) n,
    flSum_num _ (fun j => (∑ k ∈ Finset.range n, √(c.corr k j) / √(c.zRe i k)) * (b.x j t).im) n]
  · rfl
  · intro j hj; simp [Cx.scale, hcp j hj, Fl.mul, Fl.add]
  · intro j hj; simp [Cx.scale, hcp j hj, Fl.mul, Fl.add, Fl.neg]

/-- C86: a single antenna transmits its samples divided by the root of the real part of its impedance, and unchanged
by default. -/
theorem C86_transmit_single (c : Impedance) (hc : c.txCorrelation = none) (hz : 0 < c.zRe 0 0) (b : Arr) (t : ℕ) :
    (c.transmit 1 b 0 t).value = some ((b.x 0 t).re / √(c.zRe 0 0), (b.x 0 t).im / √(c.zRe 0 0)) ∧
      (c.txImpedance = none → (c.transmit 1 b 0 t).value = some ((b.x 0 t).re, (b.x 0 t).im)) := by
  have h := C86_transmit_partial c 1 0 (fun k hk => by rw [show k = 0 by omega]; exact hz)
    (fun k j hk hj => by rw [show k = 0 by omega, show j = 0 by omega]; simp [Impedance.corr, hc]) b t
  have e : (c.transmit 1 b 0 t).value = some ((b.x 0 t).re / √(c.zRe 0 0), (b.x 0 t).im / √(c.zRe 0 0)) := by
    rw [h]
    simp only [Finset.sum_range_one, Impedance.corr, hc, if_true, Real.sqrt_one]
    congr 2 <;> ring
  refine ⟨e, fun hd => ?_⟩
  rw [e]
  simp [Impedance.zRe, hd]

/-- C86 fails for coupled antennas: the coupling matrix is not the inverse root of the impedance matrix, for any pair of
equal antennas whose mutual impedance is positive. -/
theorem C86_transmit_root_fails (a b : ℝ) (ha : 0 < a) (hb : 0 < b) :
    let T : Matrix (Fin 2) (Fin 2) ℝ := !![1 / √a, 1 / √b; 1 / √b, 1 / √a]
    let Z : Matrix (Fin 2) (Fin 2) ℝ := !![a, b; b, a]
    (∀ i j : Fin 2, (⟨some fun i k => if i = k then (a : ℂ) else b, none⟩ : Impedance).txCoupling 2 i j = .num (T i j)) ∧
      T * T * Z ≠ 1 := by
  intro T Z
  have hsa : 0 < √a := Real.sqrt_pos.mpr ha
  have hsb : 0 < √b := Real.sqrt_pos.mpr hb
  constructor
  · intro i j
    rw [txCoupling_num _ 2 i]
    · fin_cases i <;> fin_cases j <;> simp [T, Finset.sum_range_succ, Impedance.zRe, Impedance.corr]
    · intro k _
      by_cases e : (i : ℕ) = k <;> simp [Impedance.zRe, e, ha, hb]
    · intro k j _ _
      simp only [Impedance.corr]; split <;> norm_num
    · exact j.isLt
  · intro h
    have h00 := congrFun (congrFun h 0) 0
    simp only [T, Z, Matrix.mul_apply, Fin.sum_univ_two, Matrix.of_apply, Matrix.cons_val', Matrix.cons_val_zero,
      Matrix.cons_val_one, Matrix.cons_val_fin_one, Matrix.one_apply_eq] at h00
    have e1 : 1 / √a * (1 / √a) * a = 1 := by
      rw [div_mul_div_comm, one_mul, Real.mul_self_sqrt ha.le]; field_simp
    have p1 : 0 < 1 / √b * (1 / √b) * a := by positivity
    have p2 : 0 < (1 / √a * (1 / √b) + 1 / √b * (1 / √a)) * b := by positivity
    nlinarith [e1, p1, p2, h00]

/-! ### Reception -/

variable {n : ℕ}

/-- `receive_coupling`, `impedance.py` 190-212: only the first element of the receive impedance is used.  Matching
impedances have real parts which are not negative and correlations are real and not negative; `np.linalg.inv` raises
a `LinAlgError`, which is a `ValueError`, for singular matrices. -/
noncomputable def rxCoupling (z0 : Option (Matrix (Fin (n + 1)) (Fin (n + 1)) ℂ)) (m : Option (Matrix (Fin (n + 1)) (Fin (n + 1)) ℂ))
    (r : Option (Matrix (Fin (n + 1)) (Fin (n + 1)) ℝ)) : Except PyErr (Matrix (Fin (n + 1)) (Fin (n + 1)) ℂ) :=
  let z := z0.getD 1
  let m := m.getD 1
  let r := r.getD 1
  let rc : Matrix (Fin (n + 1)) (Fin (n + 1)) ℂ := r.map Complex.ofReal
  open Classical in
  if IsUnit (m + rc).det then
    .ok ((2 * ((z 0 0).re : ℂ)) • m.map (fun x => ((√x.re : ℝ) : ℂ)) * (m + rc)⁻¹ * r.map (fun x => ((√x : ℝ) : ℂ)))
  else .error .value

theorem rxCoupling_ok (z m : Option (Matrix (Fin (n + 1)) (Fin (n + 1)) ℂ))
    (r : Option (Matrix (Fin (n + 1)) (Fin (n + 1)) ℝ)) (S : Matrix (Fin (n + 1)) (Fin (n + 1)) ℂ)
    (hS : m.getD 1 + (r.getD 1).map Complex.ofReal = S) (hu : IsUnit S.det) :
    rxCoupling z m r = .ok ((2 * ((z.getD 1 0 0).re : ℂ)) • (m.getD 1).map (fun x => ((√x.re : ℝ) : ℂ)) * S⁻¹ *
      (r.getD 1).map (fun x => ((√x : ℝ) : ℂ))) := by
  subst hS
  exact if_pos hu

/-- C86: by default receptions are not changed, for any number of antennas. -/
theorem C86_receive_default : rxCoupling (n := n) none none none = .ok 1 := by
  have h2 : ((1 : Matrix (Fin (n + 1)) (Fin (n + 1)) ℂ) + (1 : Matrix (Fin (n + 1)) (Fin (n + 1)) ℝ).map Complex.ofReal)
      = (2 : ℂ) • (1 : Matrix (Fin (n + 1)) (Fin (n + 1)) ℂ) := by
    rw [two_smul]
    congr 1
    exact Matrix.map_one _ (by simp) (by simp)
  have hu : IsUnit ((2 : ℂ) • (1 : Matrix (Fin (n + 1)) (Fin (n + 1)) ℂ)).det := by
    rw [Matrix.det_smul, Matrix.det_one, mul_one]
    exact isUnit_iff_ne_zero.mpr (pow_ne_zero _ two_ne_zero)
  have hinv : ((2 : ℂ) • (1 : Matrix (Fin (n + 1)) (Fin (n + 1)) ℂ))⁻¹ = (1 / 2 : ℂ) • 1 := by
    apply Matrix.inv_eq_right_inv
    rw [Matrix.smul_mul, Matrix.one_mul, smul_smul]
    norm_num
  rw [rxCoupling_ok none none none _ h2 hu, hinv]
  simp only [Option.getD_none]
  have e1 : (1 : Matrix (Fin (n + 1)) (Fin (n + 1)) ℂ).map (fun x => ((√x.re : ℝ) : ℂ)) = 1 :=
    Matrix.map_one _ (by simp) (by simp)
  have e2 : (1 : Matrix (Fin (n + 1)) (Fin (n + 1)) ℝ).map (fun x => ((√x : ℝ) : ℂ)) = 1 :=
    Matrix.map_one _ (by simp) (by simp)
  rw [e1, e2]
  simp [smul_smul]

/-- C86: a single antenna of matching impedance `m` and receive impedance `z` receives samples scaled by
`2 Re(z) √Re(m) / (m + 1)`. -/
theorem C86_receive_single (z m : ℂ) (h : m + 1 ≠ 0) :
    ∃ g : Matrix (Fin 1) (Fin 1) ℂ, rxCoupling (n := 0) (some (.of fun _ _ => z)) (some (.of fun _ _ => m)) none = .ok g ∧
      g 0 0 = 2 * z.re * √m.re / (m + 1) := by
  have e : ((.of fun _ _ => m : Matrix (Fin 1) (Fin 1) ℂ) + (1 : Matrix (Fin 1) (Fin 1) ℝ).map Complex.ofReal)
      = .of fun _ _ => m + 1 := by
    ext i j
    have hi : i = 0 := Subsingleton.elim _ _
    have hj : j = 0 := Subsingleton.elim _ _
    subst hi hj
    simp [Matrix.add_apply]
  have hinv : (.of fun _ _ => m + 1 : Matrix (Fin 1) (Fin 1) ℂ)⁻¹ = .of fun _ _ => (m + 1)⁻¹ := by
    apply Matrix.inv_eq_right_inv
    ext i j
    have hi : i = 0 := Subsingleton.elim _ _
    have hj : j = 0 := Subsingleton.elim _ _
    subst hi hj
    simp [Matrix.mul_apply, h]
  refine ⟨_, rxCoupling_ok _ _ none _ e (by rw [Matrix.det_fin_one]; exact isUnit_iff_ne_zero.mpr h), ?_⟩
  rw [hinv]
  simp only [Option.getD_some, Option.getD_none, Matrix.mul_apply, Matrix.smul_apply, Matrix.map_apply, smul_eq_mul,
    Matrix.of_apply]
  rw [Fin.sum_univ_one, Fin.sum_univ_one, div_eq_mul_inv]
  simp

/-- C86 fails for the receive impedances of all antennas but the first: they have no effect. -/
theorem C86_receive_impedance_fails (z z' : Matrix (Fin (n + 1)) (Fin (n + 1)) ℂ) (h : z 0 0 = z' 0 0)
    (m : Option (Matrix (Fin (n + 1)) (Fin (n + 1)) ℂ)) (r : Option (Matrix (Fin (n + 1)) (Fin (n + 1)) ℝ)) :
    rxCoupling (some z) m r = rxCoupling (some z') m r := by
  simp [rxCoupling, h]

/-! ### Streams, blocks and storage -/

/-- `transmit` and `receive` of a coupling, `simulation/coupling/coupling.py` 40-52 and 81-93: `antennas` is the number
of transmit or receive antennas and `f` the coupling of a block. -/
noncomputable def couple (f : Blk → Blk) (antennas : ℕ) (s : Sig) : Except PyErr Sig :=
  if antennas ≠ s.streams then .error .value
  else .ok (create (s.blocks.map f) s.rate s.carrier s.noise s.delay none)

/-- C86: couplings which keep the offsets of blocks, as all do, keep the instants of all samples, the sampling rate, the
carrier frequency and the noise power, and refuse signals of other stream counts. -/
theorem C86_couple (f : Blk → Blk) (hf : ∀ b, (f b).offset = b.offset) (antennas : ℕ) (s : Sig) :
    (s.streams ≠ antennas → couple f antennas s = .error .value) ∧
    (s.streams = antennas → ∃ r, couple f antennas s = .ok r ∧ r.blocks = s.blocks.map f ∧ r.rate = s.rate ∧
      r.carrier = s.carrier ∧ r.noise = s.noise ∧ ∀ b ∈ s.blocks, ∀ k, r.instant (f b) k = s.instant b k) := by
  refine ⟨fun h => by simp [couple, Ne.symm h], fun h => ?_⟩
  refine ⟨⟨s.blocks.map f, s.rate, s.carrier, s.noise, s.delay⟩, ?_, rfl, rfl, rfl, rfl, fun b _ k => ?_⟩
  · simp only [couple, h, ne_eq, not_true_eq_false, if_false, create]
    split <;> simp
  · simp [Sig.instant, hf]

/-- C86: perfect couplings return the signal, `simulation/coupling/perfect.py` 31-37. -/
theorem C86_perfect (s : Sig) : couple id s.streams s = .ok s := by
  simp only [couple, ne_eq, not_true_eq_false, if_false, create, List.map_id]
  split <;> simp

/-- C86 fails for stored couplings: whatever `np.asarray(dataset, np.float64)` makes of complex impedances, real numbers
are restored (`impedance.py` 231-242), so that no impedance with an imaginary part comes back. -/
theorem C86_storage_fails (read : (ℕ → ℕ → ℂ) → Except PyErr (ℕ → ℕ → ℝ)) (z : ℕ → ℕ → ℂ) (i j : ℕ) (h : (z i j).im ≠ 0) :
    ∀ r, read z = .ok r → (fun i j => (r i j : ℂ)) ≠ z := by
  intro r _ e
  have := congrArg Complex.im (congrFun (congrFun e i) j)
  simp only [Complex.ofReal_im] at this
  exact h this.symm

example : (0 : ℝ) < (⟨some fun i k => if i = k then 2 else 1, none⟩ : Impedance).zRe 0 1 := by
  simp [Impedance.zRe]

example : (1 : ℂ) + 1 ≠ 0 := by norm_num

end Verif.SimDev
