import Verif.Np
import Mathlib.Analysis.SpecialFunctions.Complex.Arg
import Mathlib.Analysis.SpecialFunctions.Complex.Circle

/-!
# In-phase and quadrature streams (C125)

Model of `hermespy/hardware_loop/precoding.py`: `IQSplitter`, which turns every complex stream into a stream of real parts
and a stream of imaginary parts, and `IQCombiner`, which is to turn pairs of received streams back into complex streams.
Numpy's broadcasting of rows and its division by zero are modelled; floating point numbers are exact otherwise.
`nan` is `none`.
-/

namespace Verif.Iq

open Verif (PyErr)

/-- What a `DenseSignal` consists of, `core/signal_model.py` 1190-1226. -/
structure Sig (α : Type) where
  rate : ℚ
  carrier : ℚ
  noise : ℚ
  delay : ℚ
  /-- `num_samples` -/
  N : ℕ
  rows : List (List α)

/-- All streams have the signal's number of samples. -/
def Sig.Rect {α : Type} (s : Sig α) : Prop := ∀ r ∈ s.rows, r.length = s.N

/-! ### Splitting -/

/-- Numpy's assignment of an array to `m` rows, `hardware_loop/precoding.py` 38-39: a single row is repeated, other
numbers of rows must agree. -/
def fitRows (m : ℕ) (x : List (List ℂ)) : Except PyErr (List (List ℂ)) :=
  if x.length = m then .ok x else match x with
    | [r] => .ok (List.replicate m r)
    | _ => .error .value

/-- `IQSplitter.encode_streams`, `hardware_loop/precoding.py` 32-49. -/
def split (m : ℕ) (s : Sig ℂ) : Except PyErr (Sig ℂ) :=
  match fitRows ((m + 1) / 2) (s.rows.map fun (r : List ℂ) => r.map fun (z : ℂ) => (z.re : ℂ)) with
  | .error e => .error e
  | .ok re =>
    match fitRows (m / 2) (s.rows.map fun (r : List ℂ) => r.map fun (z : ℂ) => (z.im : ℂ)) with
    | .error e => .error e
    | .ok im =>
      .ok { s with rows := (List.range m).map fun (k : ℕ) => if k % 2 = 0 then re.getD (k / 2) [] else im.getD (k / 2) [] }

/-- `IQSplitter.num_transmit_input_streams`, `hardware_loop/precoding.py` 51-53. -/
def splitInputs (m : ℕ) : ℕ := m / 2

/-! ### Combining -/

/-- `np.angle` of a quotient and `np.angle`. -/
structure Lib where
  quot : ℂ → ℂ → Option ℝ
  angle : ℂ → ℝ

/-- What is known of them: both are arguments of their operands, between -π and π; which of the two is returned on the
negative real axis depends on the signs of zeros.  Numbers whose imaginary part is zero, divided by zero, have no angle:
numpy's division returns an infinity or `nan` as the real and `nan` as the imaginary part. -/
structure Lib.Lawful (L : Lib) : Prop where
  quot_ok : ∀ q i, i ≠ 0 → ∃ a, L.quot q i = some a ∧ |a| ≤ Real.pi ∧
    (‖q / i‖ : ℂ) * Complex.exp (a * Complex.I) = q / i
  quot_pos : ∀ q i, i ≠ 0 → 0 < (q / i).re → (q / i).im = 0 → L.quot q i = some 0
  quot_zero : ∀ q, q.im = 0 → L.quot q 0 = none
  angle_ok : ∀ z, (‖z‖ : ℂ) * Complex.exp (L.angle z * Complex.I) = z

/-- Every second row from row `p` on, `hardware_loop/precoding.py` 82. -/
def every2 (p : ℕ) (x : List (List ℂ)) : List (List ℂ) :=
  (List.range ((x.length + 1 - p) / 2)).map fun (k : ℕ) => x.getD (2 * k + p) []

/-- Numpy's broadcasting of two arrays of rows of the same length, `hardware_loop/precoding.py` 69-73. -/
def pairRows (i q : List (List ℂ)) : Except PyErr (List (List (ℂ × ℂ))) :=
  if i.length = q.length then .ok (List.zipWith List.zip i q)
  else match i, q with
    | [r], _ => .ok (q.map fun (s : List ℂ) => r.zip s)
    | _, [s] => .ok (i.map fun (r : List ℂ) => r.zip s)
    | _, _ => .error .value

/-- `np.mean` of angles; of nothing and with `nan` it is `nan`. -/
noncomputable def meanAngle (l : List (Option ℝ)) : Option ℝ :=
  match l.mapM id with
  | none => none
  | some [] => none
  | some as => some (as.sum / as.length)

/-- One sample of `IQCombiner.combineIQ`, `hardware_loop/precoding.py` 71-74. -/
noncomputable def combineOne (L : Lib) (φ : ℝ) (x : ℂ × ℂ) : ℂ :=
  let q := Complex.exp (-Complex.I * φ) * x.2
  (Real.sqrt (‖x.1‖ ^ 2 + ‖q‖ ^ 2) : ℂ) * Complex.exp (Complex.I * L.angle (q + x.1))

/-- `IQCombiner.combineIQ`, `hardware_loop/precoding.py` 68-75: one phase for all streams and samples. -/
noncomputable def combine (L : Lib) (p : List (List (ℂ × ℂ))) : List (List (Option ℂ)) :=
  let φ := meanAngle (p.flatten.map fun (x : ℂ × ℂ) => L.quot x.2 x.1)
  p.map fun (r : List (ℂ × ℂ)) => r.map fun (x : ℂ × ℂ) => φ.map fun (f : ℝ) => combineOne L f x

/-- `IQCombiner.decode_streams`, `hardware_loop/precoding.py` 77-91; `o` is the number of output streams.  A signal is
created from the leading streams of the buffer, which must not be too small (`core/signal_model.py` 424). -/
noncomputable def decode (L : Lib) (o : ℕ) (s : Sig ℂ) : Except PyErr (Sig (Option ℂ)) :=
  match pairRows (every2 0 s.rows) (every2 1 s.rows) with
  | .error e => .error e
  | .ok p =>
    if p.length * s.N < o * s.N then .error .type
    else .ok ⟨s.rate, s.carrier, s.noise, s.delay, s.N, (combine L p).take o⟩

/-- `IQCombiner.num_receive_output_streams`, `hardware_loop/precoding.py` 93-95. -/
def combineOutputs (m : ℕ) : ℕ := m / 2

/-! ### Splitting: theorems -/

theorem fitRows_eq (x : List (List ℂ)) : fitRows x.length x = .ok x := by
  simp [fitRows]

theorem fitRows_one (m : ℕ) (r : List ℂ) : fitRows m [r] = .ok (List.replicate m r) := by
  unfold fitRows
  split
  · rename_i h
    simp at h
    subst h; rfl
  · rfl

theorem fitRows_bad (m : ℕ) (x : List (List ℂ)) (h1 : x.length ≠ m) (h2 : x.length ≠ 1) :
    fitRows m x = .error .value := by
  unfold fitRows
  rw [if_neg h1]
  match x, h2 with
  | [], _ => rfl
  | [a], h => exact absurd rfl h
  | _ :: _ :: _, _ => rfl

/-- The streams written by the splitter. -/
def splitRows (x : List (List ℂ)) : List (List ℂ) :=
  (List.range (2 * x.length)).map fun (k : ℕ) => if k % 2 = 0
    then (x.map fun (r : List ℂ) => r.map fun (z : ℂ) => (z.re : ℂ)).getD (k / 2) []
    else (x.map fun (r : List ℂ) => r.map fun (z : ℂ) => (z.im : ℂ)).getD (k / 2) []

theorem split_even (s : Sig ℂ) : split (2 * s.rows.length) s = .ok { s with rows := splitRows s.rows } := by
  have e1 : (2 * s.rows.length + 1) / 2 = (s.rows.map fun (r : List ℂ) => r.map fun (z : ℂ) => (z.re : ℂ)).length := by
    rw [List.length_map]; omega
  have e2 : (2 * s.rows.length) / 2 = (s.rows.map fun (r : List ℂ) => r.map fun (z : ℂ) => (z.im : ℂ)).length := by
    rw [List.length_map]; omega
  unfold split
  rw [e1, fitRows_eq, e2, fitRows_eq]
  rfl

/-- C125, splitting to twice as many streams: stream 2k of the result holds the real parts of stream k and stream 2k + 1 its
imaginary parts, in order; all results are real, the original stream is the first plus the imaginary unit times the second,
and rate, carrier frequency, noise power, delay and number of samples are those of the split signal. -/
theorem C125_split (s : Sig ℂ) (hs : s.Rect) :
    ∃ y, split (2 * s.rows.length) s = .ok y ∧ y.rows.length = 2 * s.rows.length ∧ y.Rect ∧
      y.rate = s.rate ∧ y.carrier = s.carrier ∧ y.noise = s.noise ∧ y.delay = s.delay ∧ y.N = s.N ∧
      (∀ r ∈ y.rows, ∀ z ∈ r, z.im = 0) ∧
      ∀ k r, s.rows[k]? = some r → ∃ a b, y.rows[2 * k]? = some a ∧ y.rows[2 * k + 1]? = some b ∧
        a.map Complex.re = r.map Complex.re ∧ b.map Complex.re = r.map Complex.im ∧
        List.zipWith (fun u v => u + Complex.I * v) a b = r := by
  refine ⟨_, split_even s, ?_, ?_, rfl, rfl, rfl, rfl, rfl, ?_, ?_⟩
  · simp [splitRows]
  · intro r hr
    dsimp only at hr ⊢
    unfold splitRows at hr
    rw [List.mem_map] at hr
    obtain ⟨k, hk, rfl⟩ := hr
    rw [List.mem_range] at hk
    have hk2 : k / 2 < s.rows.length := by omega
    split
    · simp [List.getD_eq_getElem?_getD, hk2]
      exact hs _ (List.getElem_mem hk2)
    · simp [List.getD_eq_getElem?_getD, hk2]
      exact hs _ (List.getElem_mem hk2)
  · intro r hr z hz
    dsimp only at hr
    unfold splitRows at hr
    rw [List.mem_map] at hr
    obtain ⟨k, hk, rfl⟩ := hr
    rw [List.mem_range] at hk
    have hk2 : k / 2 < s.rows.length := by omega
    split at hz
    · simp [List.getD_eq_getElem?_getD, hk2] at hz
      obtain ⟨a, -, rfl⟩ := hz; simp
    · simp [List.getD_eq_getElem?_getD, hk2] at hz
      obtain ⟨a, -, rfl⟩ := hz; simp
  · intro k r hr
    have hk : k < s.rows.length := by
      rw [List.getElem?_eq_some_iff] at hr; exact hr.1
    refine ⟨r.map fun (z : ℂ) => (z.re : ℂ), r.map fun (z : ℂ) => (z.im : ℂ), ?_, ?_, ?_, ?_, ?_⟩
    · dsimp only
      unfold splitRows
      rw [List.getElem?_map, List.getElem?_range (by omega)]
      simp [List.getD_eq_getElem?_getD, hr]
    · dsimp only
      unfold splitRows
      rw [List.getElem?_map, List.getElem?_range (by omega)]
      have : (2 * k + 1) / 2 = k := by omega
      simp [List.getD_eq_getElem?_getD, this, hr]
    · rw [List.map_map]; exact List.map_congr_left fun z _ => by simp
    · rw [List.map_map]; exact List.map_congr_left fun z _ => by simp
    · rw [List.zipWith_map, List.zipWith_self]
      conv_rhs => rw [← List.map_id r]
      exact List.map_congr_left fun z _ => by
        rw [mul_comm]; exact Complex.re_add_im z

/-- C125: splitting succeeds only for twice as many outputs as inputs, or for a single input. -/
theorem C125_split_refuses (m : ℕ) (s : Sig ℂ) (hm : m ≠ 2 * s.rows.length) (h1 : s.rows.length ≠ 1) :
    split m s = .error .value := by
  unfold split
  by_cases h : s.rows.length = (m + 1) / 2
  · have e : fitRows ((m + 1) / 2) (s.rows.map fun (r : List ℂ) => r.map fun (z : ℂ) => (z.re : ℂ)) =
        .ok (s.rows.map fun (r : List ℂ) => r.map fun (z : ℂ) => (z.re : ℂ)) := by
      unfold fitRows
      rw [if_pos (by rw [List.length_map]; exact h)]
    rw [e]
    dsimp only
    rw [fitRows_bad _ _ (by rw [List.length_map]; omega) (by rw [List.length_map]; exact h1)]
  · rw [fitRows_bad _ _ (by rw [List.length_map]; exact h) (by rw [List.length_map]; exact h1)]

/-- C125 is false for odd numbers of outputs: the number of inputs the encoder asks for is never accepted, except for
three outputs, where the third stream repeats the real parts. -/
theorem C125_odd_fails (m : ℕ) (ho : m % 2 = 1) (s : Sig ℂ) (hs : s.rows.length = splitInputs m) :
    (m ≠ 3 → split m s = .error .value) ∧
    (m = 3 → ∃ y a b, split m s = .ok y ∧ y.rows = [a, b, a] ∧ ∃ r, s.rows = [r] ∧
      a.map Complex.re = r.map Complex.re ∧ b.map Complex.re = r.map Complex.im) := by
  unfold splitInputs at hs
  constructor
  · intro h3
    exact C125_split_refuses m s (by omega) (by omega)
  · intro h3
    subst h3
    obtain ⟨r, hr⟩ := List.length_eq_one_iff.mp hs
    refine ⟨{ s with rows := [r.map fun (z : ℂ) => (z.re : ℂ), r.map fun (z : ℂ) => (z.im : ℂ),
      r.map fun (z : ℂ) => (z.re : ℂ)] }, _, _, ?_, rfl, r, hr, ?_, ?_⟩
    · unfold split
      rw [hr, List.map_singleton, List.map_singleton, fitRows_one, fitRows_one]
      rfl
    · rw [List.map_map]; exact List.map_congr_left fun z _ => by simp
    · rw [List.map_map]; exact List.map_congr_left fun z _ => by simp

/-! ### Combining: theorems -/

theorem pairRows_even (s : List (List ℂ)) (S : ℕ) (h : s.length = 2 * S) :
    pairRows (every2 0 s) (every2 1 s) =
      .ok ((List.range S).map fun (k : ℕ) => (s.getD (2 * k) []).zip (s.getD (2 * k + 1) [])) := by
  have e0 : (s.length + 1 - 0) / 2 = S := by omega
  have e1 : (s.length + 1 - 1) / 2 = S := by omega
  unfold pairRows every2
  rw [e0, e1, if_pos (by simp)]
  rw [List.zipWith_map, List.zipWith_self]
  rfl

/-- The angle of a quotient of samples, and the phase taken for all of them. -/
noncomputable def phaseOf (L : Lib) (s : List (List ℂ)) (S : ℕ) : Option ℝ :=
  meanAngle ((((List.range S).map fun (k : ℕ) => (s.getD (2 * k) []).zip (s.getD (2 * k + 1) [])).flatten).map
    fun (x : ℂ × ℂ) => L.quot x.2 x.1)

theorem decode_even (L : Lib) (s : Sig ℂ) (S : ℕ) (h : s.rows.length = 2 * S) :
    decode L S s = .ok ⟨s.rate, s.carrier, s.noise, s.delay, s.N,
      (List.range S).map fun (k : ℕ) => ((s.rows.getD (2 * k) []).zip (s.rows.getD (2 * k + 1) [])).map
        fun (x : ℂ × ℂ) => (phaseOf L s.rows S).map fun (f : ℝ) => combineOne L f x⟩ := by
  unfold decode
  rw [pairRows_even _ S h]
  dsimp only
  rw [if_neg (by simp)]
  unfold combine
  rw [List.map_map, List.take_of_length_le (by simp)]
  rfl

theorem mapM_id_none (l : List (Option ℝ)) (h : none ∈ l) : l.mapM id = none := by
  induction l with
  | nil => simp at h
  | cons a l ih =>
    rw [List.mapM_cons]
    cases a with
    | none => rfl
    | some v =>
      have : none ∈ l := by simpa using h
      rw [ih this]; rfl

theorem mapM_id_some (l : List ℝ) : (l.map some).mapM id = some l := by
  induction l with
  | nil => rfl
  | cons a l ih => rw [List.map_cons, List.mapM_cons, ih]; rfl

theorem meanAngle_none (l : List (Option ℝ)) (h : none ∈ l) : meanAngle l = none := by
  unfold meanAngle; rw [mapM_id_none l h]

theorem meanAngle_some (l : List ℝ) (h : l ≠ []) : meanAngle (l.map some) = some (l.sum / l.length) := by
  unfold meanAngle; rw [mapM_id_some l]
  cases l with
  | nil => exact absurd rfl h
  | cons a l => rfl

theorem norm_rot (φ : ℝ) (z : ℂ) : ‖Complex.exp (-Complex.I * φ) * z‖ = ‖z‖ := by
  rw [norm_mul]
  have : -Complex.I * (φ : ℂ) = ((-φ : ℝ) : ℂ) * Complex.I := by push_cast; ring
  rw [this, Complex.norm_exp_ofReal_mul_I, one_mul]

theorem norm_combineOne (L : Lib) (φ : ℝ) (x : ℂ × ℂ) :
    ‖combineOne L φ x‖ = Real.sqrt (‖x.1‖ ^ 2 + ‖x.2‖ ^ 2) := by
  unfold combineOne
  dsimp only
  rw [norm_mul, norm_rot, mul_comm Complex.I, Complex.norm_exp_ofReal_mul_I, mul_one, Complex.norm_real,
    Real.norm_of_nonneg (Real.sqrt_nonneg _)]

/-- The direction of a sum of non-zero streams. -/
theorem combineOne_dir (L : Lib) (hL : L.Lawful) (φ : ℝ) (x : ℂ × ℂ)
    (h : Complex.exp (-Complex.I * φ) * x.2 + x.1 ≠ 0) :
    combineOne L φ x = (Real.sqrt (‖x.1‖ ^ 2 + ‖x.2‖ ^ 2) : ℂ) *
      ((Complex.exp (-Complex.I * φ) * x.2 + x.1) / (‖Complex.exp (-Complex.I * φ) * x.2 + x.1‖ : ℂ)) := by
  unfold combineOne
  dsimp only
  rw [norm_rot]
  congr 1
  have hn : (‖Complex.exp (-Complex.I * φ) * x.2 + x.1‖ : ℂ) ≠ 0 := by
    simpa using h
  rw [eq_div_iff hn, mul_comm, mul_comm Complex.I]
  exact hL.angle_ok _

/-- C125, magnitudes: whatever the phases, the magnitude of every combined number is the root of the sum of the squared
magnitudes of the two numbers it was combined from; streams pair up as 2k and 2k + 1. -/
theorem C125_magnitude (L : Lib) (s : Sig ℂ) (S : ℕ) (h : s.rows.length = 2 * S) :
    ∃ y, decode L (combineOutputs s.rows.length) s = .ok y ∧ y.rows.length = S ∧ y.rate = s.rate ∧
      y.carrier = s.carrier ∧ y.noise = s.noise ∧ y.delay = s.delay ∧ y.N = s.N ∧
      ∀ (k n : ℕ) (r : List (Option ℂ)) (z i q : ℂ) (a b : List ℂ), y.rows[k]? = some r → r[n]? = some (some z) → s.rows[2 * k]? = some a →
        s.rows[2 * k + 1]? = some b → a[n]? = some i → b[n]? = some q →
        ‖z‖ ^ 2 = ‖i‖ ^ 2 + ‖q‖ ^ 2 := by
  have e : combineOutputs s.rows.length = S := by unfold combineOutputs; omega
  rw [e]
  refine ⟨_, decode_even L s S h, by simp, rfl, rfl, rfl, rfl, rfl, ?_⟩
  intro k n r z i q a b hr hz ha hb hi hq
  have hk : k < S := by
    have := (List.getElem?_eq_some_iff.mp hr).1; simpa using this
  rw [List.getElem?_map, List.getElem?_range hk] at hr
  simp only [Option.map_some, Option.some.injEq] at hr
  subst hr
  rw [List.getElem?_map, List.getD_eq_getElem?_getD, List.getD_eq_getElem?_getD, ha, hb] at hz
  simp only [Option.getD_some, List.zip, List.getElem?_zipWith, hi, hq, Option.map_some, Option.some.injEq] at hz
  rw [Option.map_eq_some_iff] at hz
  obtain ⟨f, -, rfl⟩ := hz
  rw [norm_combineOne, Real.sq_sqrt (by positivity)]

/-- C125, recovery: if the first stream of each pair holds the real parts of a signal, the second its imaginary parts times
the imaginary unit, rotated by a common phase, and if that phase is the mean of the angles of all quotients, then the
result is the signal.  Missing for the full claim: the second stream written by the splitter is not multiplied by the
imaginary unit, and the mean of the angles is not the phase between the streams (`C125_recover_fails`). -/
theorem C125_recover_partial (L : Lib) (hL : L.Lawful) (φ : ℝ) (x : Sig ℂ) (s : Sig ℂ)
    (hlen : s.rows.length = 2 * x.rows.length)
    (hI : ∀ (k : ℕ) r, x.rows[k]? = some r → s.rows[2 * k]? = some (r.map fun (z : ℂ) => (z.re : ℂ)))
    (hQ : ∀ (k : ℕ) r, x.rows[k]? = some r → s.rows[2 * k + 1]? =
      some (r.map fun (z : ℂ) => Complex.I * Complex.exp (Complex.I * φ) * (z.im : ℂ)))
    (hφ : phaseOf L s.rows x.rows.length = some φ) :
    ∃ y, decode L (combineOutputs s.rows.length) s = .ok y ∧
      y.rows = x.rows.map fun (r : List ℂ) => r.map some := by
  have e : combineOutputs s.rows.length = x.rows.length := by unfold combineOutputs; omega
  rw [e]
  refine ⟨_, decode_even L s _ hlen, ?_⟩
  dsimp only
  rw [hφ]
  apply List.ext_getElem
  · simp
  · intro k h1 h2
    have hk : k < x.rows.length := by simpa using h1
    have hr : x.rows[k]? = some x.rows[k] := List.getElem?_eq_getElem hk
    rw [List.getElem_map, List.getElem_range, List.getD_eq_getElem?_getD, List.getD_eq_getElem?_getD,
      hI k _ hr, hQ k _ hr, List.getElem_map]
    simp only [Option.getD_some, List.zip, List.zipWith_map, List.zipWith_self, List.map_map, Option.map_some]
    apply List.map_congr_left
    intro z _
    simp only [Function.comp]
    congr 1
    have hrot : Complex.exp (-Complex.I * φ) * (Complex.I * Complex.exp (Complex.I * φ) * (z.im : ℂ)) + (z.re : ℂ) = z := by
      have : Complex.exp (-Complex.I * φ) * Complex.exp (Complex.I * φ) = 1 := by
        rw [← Complex.exp_add]; simp
      calc _ = (Complex.exp (-Complex.I * φ) * Complex.exp (Complex.I * φ)) * (Complex.I * z.im) + z.re := by ring
        _ = z := by rw [this, one_mul, add_comm, mul_comm]; exact Complex.re_add_im z
    have hn : ‖Complex.I * Complex.exp (Complex.I * φ) * (z.im : ℂ)‖ = |z.im| := by
      rw [norm_mul, norm_mul, mul_comm Complex.I (φ : ℂ), Complex.norm_exp_ofReal_mul_I, Complex.norm_I, Complex.norm_real]
      simp
    have hs : Real.sqrt (‖(z.re : ℂ)‖ ^ 2 + ‖Complex.I * Complex.exp (Complex.I * φ) * (z.im : ℂ)‖ ^ 2) = ‖z‖ := by
      rw [hn, Complex.norm_real, Real.norm_eq_abs, sq_abs, sq_abs, Complex.norm_def, Complex.normSq_apply]
      congr 1; ring
    unfold combineOne
    dsimp only
    rw [norm_rot, hs, hrot, mul_comm Complex.I]
    exact hL.angle_ok z

/-- C125 is false of a splitter connected to a combiner: of signals in the first quadrant only the magnitudes arrive. -/
theorem C125_recover_fails (L : Lib) (hL : L.Lawful) (x : Sig ℂ) (hne : ∃ r ∈ x.rows, r ≠ [])
    (hq : ∀ r ∈ x.rows, ∀ z ∈ r, 0 < z.re ∧ 0 < z.im) :
    ∃ s y, split (2 * x.rows.length) x = .ok s ∧ decode L (combineOutputs s.rows.length) s = .ok y ∧
      y.rows = x.rows.map fun (r : List ℂ) => r.map fun (z : ℂ) => some (‖z‖ : ℂ) := by
  have row : ∀ k, k < x.rows.length → ((splitRows x.rows).getD (2 * k) []).zip ((splitRows x.rows).getD (2 * k + 1) []) =
      (x.rows.getD k []).map fun (z : ℂ) => ((z.re : ℂ), (z.im : ℂ)) := by
    intro k hk
    have a : 2 * k < 2 * x.rows.length := by omega
    have b : 2 * k + 1 < 2 * x.rows.length := by omega
    have c : (2 * k + 1) / 2 = k := by omega
    simp [splitRows, List.getD_eq_getElem?_getD, a, b, c, hk, List.zip, List.zipWith_map, List.zipWith_self]
  refine ⟨_, ⟨x.rate, x.carrier, x.noise, x.delay, x.N, x.rows.map fun (r : List ℂ) => r.map fun (z : ℂ) => some (‖z‖ : ℂ)⟩,
    split_even x, ?_, ?_⟩
  · rw [show combineOutputs (splitRows x.rows).length = x.rows.length by simp [combineOutputs, splitRows]]
    rw [decode_even L _ x.rows.length (by simp [splitRows])]
    have ph : ∀ (rows : List (List ℂ)), (∀ k, k < x.rows.length → (rows.getD (2 * k) []).zip (rows.getD (2 * k + 1) []) =
        (x.rows.getD k []).map fun (z : ℂ) => ((z.re : ℂ), (z.im : ℂ))) → phaseOf L rows x.rows.length = some 0 := by
      intro rows hrow
      unfold phaseOf
      have : ((List.range x.rows.length).map fun (k : ℕ) => (rows.getD (2 * k) []).zip (rows.getD (2 * k + 1) [])) =
          x.rows.map fun (r : List ℂ) => r.map fun (z : ℂ) => ((z.re : ℂ), (z.im : ℂ)) := by
        apply List.ext_getElem
        · simp
        · intro k h1 h2
          have hk : k < x.rows.length := by simpa using h1
          rw [List.getElem_map, List.getElem_range, hrow k hk, List.getElem_map]
          simp [List.getD_eq_getElem?_getD, hk]
      rw [this]
      have hz : ((x.rows.map fun (r : List ℂ) => r.map fun (z : ℂ) => ((z.re : ℂ), (z.im : ℂ))).flatten.map
          fun (w : ℂ × ℂ) => L.quot w.2 w.1) = (x.rows.flatten.map fun (_ : ℂ) => (0 : ℝ)).map some := by
        rw [List.map_map, ← List.map_flatten, List.map_map]
        apply List.map_congr_left
        intro z hz
        obtain ⟨r, hr, hzr⟩ := List.mem_flatten.mp hz
        obtain ⟨p1, p2⟩ := hq r hr z hzr
        simp only [Function.comp]
        have hd : (z.im : ℂ) / (z.re : ℂ) = ((z.im / z.re : ℝ) : ℂ) := by push_cast; rfl
        apply hL.quot_pos
        · exact_mod_cast p1.ne'
        · rw [hd, Complex.ofReal_re]; exact div_pos p2 p1
        · rw [hd, Complex.ofReal_im]
      rw [hz, meanAngle_some]
      · rw [List.map_const', List.sum_replicate]; simp
      · obtain ⟨r, hr, hr0⟩ := hne
        intro hc
        rw [List.map_eq_nil_iff, List.flatten_eq_nil_iff] at hc
        exact hr0 (hc r hr)
    dsimp only
    rw [ph _ row]
    congr 2
    apply List.ext_getElem
    · simp
    · intro k h1 h2
      have hk : k < x.rows.length := by simpa using h1
      rw [List.getElem_map, List.getElem_range, row k hk, List.getElem_map, List.map_map]
      rw [List.getD_eq_getElem?_getD, List.getElem?_eq_getElem hk, Option.getD_some]
      apply List.map_congr_left
      intro z hz
      obtain ⟨p1, p2⟩ := hq _ (List.getElem_mem hk) z hz
      simp only [Function.comp, Option.map_some]
      congr 1
      have hs : Complex.exp (-Complex.I * (0 : ℝ)) * (z.im : ℂ) + (z.re : ℂ) = ((z.im + z.re : ℝ) : ℂ) := by
        push_cast; simp
      rw [combineOne_dir L hL 0 _ (by dsimp only; rw [hs]; exact_mod_cast (by positivity : z.im + z.re ≠ 0))]
      dsimp only
      have hn : ‖((z.im + z.re : ℝ) : ℂ)‖ = z.im + z.re := by
        rw [Complex.norm_real, Real.norm_of_nonneg (by positivity)]
      rw [hs, hn, div_self (by exact_mod_cast (by positivity : z.im + z.re ≠ 0)), mul_one, Complex.norm_real,
        Complex.norm_real, Real.norm_eq_abs, Real.norm_eq_abs, sq_abs, sq_abs, Complex.norm_def, Complex.normSq_apply]
      congr 2; ring
  · rfl

/-- C125 is false if a single real part is zero: all numbers of all streams of the result are `nan`. -/
theorem C125_zero_fails (L : Lib) (hL : L.Lawful) (s : Sig ℂ) (S k n : ℕ) (h : s.rows.length = 2 * S) (a b : List ℂ) (q : ℂ)
    (ha : s.rows[2 * k]? = some a) (hb : s.rows[2 * k + 1]? = some b) (hi : a[n]? = some 0) (hq : b[n]? = some q)
    (him : q.im = 0) :
    ∃ y, decode L (combineOutputs s.rows.length) s = .ok y ∧ ∀ r ∈ y.rows, ∀ z ∈ r, z = none := by
  have e : combineOutputs s.rows.length = S := by unfold combineOutputs; omega
  rw [e]
  refine ⟨_, decode_even L s S h, ?_⟩
  have hk : k < S := by
    have := (List.getElem?_eq_some_iff.mp hb).1; omega
  have hp : phaseOf L s.rows S = none := by
    unfold phaseOf
    apply meanAngle_none
    rw [List.mem_map]
    refine ⟨(0, q), ?_, hL.quot_zero q him⟩
    rw [List.mem_flatten]
    refine ⟨a.zip b, ?_, ?_⟩
    · rw [List.mem_map]
      refine ⟨k, List.mem_range.mpr hk, ?_⟩
      rw [List.getD_eq_getElem?_getD, List.getD_eq_getElem?_getD, ha, hb]; rfl
    · apply List.mem_of_getElem? (i := n)
      simp [List.zip, List.getElem?_zipWith, hi, hq]
  intro r hr z hz
  dsimp only at hr
  rw [hp] at hr
  rw [List.mem_map] at hr
  obtain ⟨j, -, rfl⟩ := hr
  simp at hz
  exact hz.2

/-! ### Non-vacuity -/

open Classical in
/-- The principal argument. -/
noncomputable def argLib : Lib where
  quot q i := if i = 0 then (if q.im = 0 then none else some 0) else some (q / i).arg
  angle z := z.arg

theorem argLib_lawful : argLib.Lawful where
  quot_ok q i hi := ⟨(q / i).arg, by simp [argLib, hi], Complex.abs_arg_le_pi _, Complex.norm_mul_exp_arg_mul_I _⟩
  quot_pos q i hi h1 h2 := by
    have : (q / i).arg = 0 := by rw [Complex.arg_eq_zero_iff]; exact ⟨h1.le, h2⟩
    simp [argLib, hi, this]
  quot_zero q h := by simp [argLib, h]
  angle_ok z := Complex.norm_mul_exp_arg_mul_I z

/-- Two streams of two samples, split into four. -/
example : ∃ y, split 4 ⟨1, 0, 0, 0, 2, [[1 + 2 * Complex.I, 3], [-1, Complex.I]]⟩ = .ok y ∧ y.rows.length = 4 :=
  (C125_split ⟨1, 0, 0, 0, 2, [[1 + 2 * Complex.I, 3], [-1, Complex.I]]⟩
    (by intro r hr; simp at hr; rcases hr with rfl | rfl <;> rfl)).imp fun _ h => ⟨h.1, h.2.1⟩

/-- Two streams cannot be split into three, the two streams asked for by five outputs not into five. -/
example : split 3 ⟨1, 0, 0, 0, 1, [[1], [2]]⟩ = .error .value ∧ split 5 ⟨1, 0, 0, 0, 1, [[1], [2]]⟩ = .error .value :=
  ⟨C125_split_refuses 3 _ (by decide) (by decide), (C125_odd_fails 5 rfl ⟨1, 0, 0, 0, 1, [[1], [2]]⟩ rfl).1 (by decide)⟩

theorem norm_of_sq (z : ℂ) (v : ℝ) (hv : 0 ≤ v) (h : z.re * z.re + z.im * z.im = v * v) : ‖z‖ = v := by
  rw [Complex.norm_def, Complex.normSq_apply, h, Real.sqrt_mul_self hv]

/-- C125 is false: two different signals are combined to the same numbers. -/
theorem C125_distinct_fails (L : Lib) (hL : L.Lawful) : ∃ x x' s s' y y' : Sig _, x.rows ≠ x'.rows ∧
    split 2 x = .ok s ∧ split 2 x' = .ok s' ∧ decode L 1 s = .ok y ∧ decode L 1 s' = .ok y' ∧ y.rows = y'.rows := by
  have h34 : ‖(⟨3, 4⟩ : ℂ)‖ = 5 := norm_of_sq _ 5 (by norm_num) (by norm_num)
  have h43 : ‖(⟨4, 3⟩ : ℂ)‖ = 5 := norm_of_sq _ 5 (by norm_num) (by norm_num)
  obtain ⟨s, y, e1, e2, e3⟩ := C125_recover_fails L hL ⟨1, 0, 0, 0, 1, [[⟨3, 4⟩]]⟩ ⟨[⟨3, 4⟩], by simp, by simp⟩
    (by intro r hr z hz; simp at hr; subst hr; simp at hz; subst hz; norm_num)
  obtain ⟨s', y', e1', e2', e3'⟩ := C125_recover_fails L hL ⟨1, 0, 0, 0, 1, [[⟨4, 3⟩]]⟩ ⟨[⟨4, 3⟩], by simp, by simp⟩
    (by intro r hr z hz; simp at hr; subst hr; simp at hz; subst hz; norm_num)
  have l : s.rows.length = 2 := by
    obtain ⟨t, ht, hl, -⟩ := C125_split ⟨1, 0, 0, 0, 1, [[⟨3, 4⟩]]⟩ (by intro r hr; simp at hr; subst hr; rfl)
    rw [ht] at e1; cases e1; exact hl
  have l' : s'.rows.length = 2 := by
    obtain ⟨t, ht, hl, -⟩ := C125_split ⟨1, 0, 0, 0, 1, [[⟨4, 3⟩]]⟩ (by intro r hr; simp at hr; subst hr; rfl)
    rw [ht] at e1'; cases e1'; exact hl
  rw [l] at e2
  rw [l'] at e2'
  refine ⟨_, _, s, s', y, y', ?_, e1, e1', e2, e2', ?_⟩
  · intro h
    simp at h
  · rw [e3, e3']
    simp only [List.map_cons, List.map_nil, h34, h43]

/-- Two balanced samples whose second stream is multiplied by the imaginary unit meet the hypotheses of
`C125_recover_partial`. -/
example : ∃ y, decode argLib 1 ⟨1, 0, 0, 0, 2, [[1, 1], [Complex.I, -Complex.I]]⟩ = .ok y ∧
    y.rows = [[some (1 + Complex.I), some (1 - Complex.I)]] := by
  obtain ⟨y, e1, e2⟩ := C125_recover_partial argLib argLib_lawful 0 ⟨1, 0, 0, 0, 2, [[1 + Complex.I, 1 - Complex.I]]⟩
    ⟨1, 0, 0, 0, 2, [[1, 1], [Complex.I, -Complex.I]]⟩ rfl
    (by intro k r hr; match k with | 0 => (simp at hr; subst hr; simp) | k + 1 => simp at hr)
    (by intro k r hr; match k with | 0 => (simp at hr; subst hr; simp) | k + 1 => simp at hr)
    (by
      have : ([Complex.I, -Complex.I].map fun z => argLib.quot z 1) = [Real.pi / 2, -(Real.pi / 2)].map some := by
        simp [argLib, Complex.arg_I, Complex.arg_neg_I]
      have h2 := meanAngle_some [Real.pi / 2, -(Real.pi / 2)] (by simp)
      rw [← this] at h2
      unfold phaseOf
      simpa using h2)
  exact ⟨y, e1, by rw [e2]; simp⟩

/-- A single zero of the real parts spoils four streams. -/
example : ∃ y, decode argLib 2 ⟨1, 0, 0, 0, 2, [[1, 0], [1, 1], [2, 3], [4, 5]]⟩ = .ok y ∧
    ∀ r ∈ y.rows, ∀ z ∈ r, z = none :=
  C125_zero_fails argLib argLib_lawful ⟨1, 0, 0, 0, 2, [[1, 0], [1, 1], [2, 3], [4, 5]]⟩ 2 0 1 rfl _ _ 1 rfl rfl rfl rfl (by simp)

/-- C125 is false of the streams separately: the first pair of streams is combined to different numbers, depending on the
second pair. -/
theorem C125_joint_fails (L : Lib) (hL : L.Lawful) : ∃ s s' : Sig ℂ, ∃ y y' : Sig (Option ℂ),
    s.rows.length = 4 ∧ s'.rows.length = 4 ∧ s.rows[0]? = s'.rows[0]? ∧ s.rows[1]? = s'.rows[1]? ∧
    decode L 2 s = .ok y ∧ decode L 2 s' = .ok y' ∧ y.rows[0]? ≠ y'.rows[0]? := by
  have q1 : L.quot 1 1 = some 0 := hL.quot_pos 1 1 one_ne_zero (by simp) (by simp)
  obtain ⟨a, qa, hpi, hexp⟩ := hL.quot_ok Complex.I 1 one_ne_zero
  have p : phaseOf L [[1], [1], [1], [1]] 2 = some 0 := by
    have h := meanAngle_some [0, 0] (by simp)
    unfold phaseOf
    have e : ((((List.range 2).map fun (k : ℕ) => (([[1], [1], [1], [1]] : List (List ℂ)).getD (2 * k) []).zip
        (([[1], [1], [1], [1]] : List (List ℂ)).getD (2 * k + 1) [])).flatten).map fun (x : ℂ × ℂ) => L.quot x.2 x.1) =
        [0, 0].map some := by
      show [L.quot 1 1, L.quot 1 1] = _
      rw [q1]; rfl
    rw [e, h]; simp
  have p' : phaseOf L [[1], [1], [1], [Complex.I]] 2 = some (a / 2) := by
    have h := meanAngle_some [0, a] (by simp)
    unfold phaseOf
    have e : ((((List.range 2).map fun (k : ℕ) => (([[1], [1], [1], [Complex.I]] : List (List ℂ)).getD (2 * k) []).zip
        (([[1], [1], [1], [Complex.I]] : List (List ℂ)).getD (2 * k + 1) [])).flatten).map
        fun (x : ℂ × ℂ) => L.quot x.2 x.1) = [0, a].map some := by
      show [L.quot 1 1, L.quot Complex.I 1] = _
      rw [q1, qa]; rfl
    rw [e, h]; simp
  refine ⟨⟨1, 0, 0, 0, 1, [[1], [1], [1], [1]]⟩, ⟨1, 0, 0, 0, 1, [[1], [1], [1], [Complex.I]]⟩, _, _, rfl, rfl, rfl, rfl,
    decode_even L _ 2 rfl, decode_even L _ 2 rfl, ?_⟩
  dsimp only
  rw [p, p']
  show some [some (combineOne L 0 (1, 1))] ≠ some [some (combineOne L (a / 2) (1, 1))]
  intro h
  simp only [Option.some.injEq, List.cons.injEq, and_true] at h
  -- the sine of a is 1, hence that of a / 2 is not 0
  have hs : Real.sin a = 1 := by
    have := congrArg Complex.im hexp
    simpa [Complex.exp_ofReal_mul_I_im] using this
  have hs2 : Real.sin (a / 2) ≠ 0 := by
    intro h0
    have h2 := Real.sin_two_mul (a / 2)
    rw [show 2 * (a / 2) = a by ring, hs, h0] at h2
    simp at h2
  have im : ∀ φ : ℝ, (Complex.exp (-Complex.I * φ) * 1 + 1).im = -Real.sin φ := by
    intro φ
    have : -Complex.I * (φ : ℂ) = ((-φ : ℝ) : ℂ) * Complex.I := by push_cast; ring
    rw [this, mul_one, Complex.add_im, Complex.exp_ofReal_mul_I_im, Real.sin_neg]; simp
  have n2 : Complex.exp (-Complex.I * (a / 2 : ℝ)) * 1 + 1 ≠ 0 := by
    intro h0
    have := congrArg Complex.im h0
    rw [im] at this
    simp at this
    exact hs2 this
  have n1 : Complex.exp (-Complex.I * (0 : ℝ)) * 1 + 1 ≠ 0 := by simp
  rw [combineOne_dir L hL 0 (1, 1) n1, combineOne_dir L hL (a / 2) (1, 1) n2] at h
  have hsq : (Real.sqrt (‖(1 : ℂ)‖ ^ 2 + ‖(1 : ℂ)‖ ^ 2) : ℂ) ≠ 0 := by
    have : (0 : ℝ) < Real.sqrt (‖(1 : ℂ)‖ ^ 2 + ‖(1 : ℂ)‖ ^ 2) := Real.sqrt_pos.mpr (by norm_num)
    exact_mod_cast this.ne'
  have h' := mul_left_cancel₀ hsq h
  have him := congrArg Complex.im h'
  rw [Complex.div_ofReal_im, Complex.div_ofReal_im, im, im] at him
  simp only [Real.sin_zero, neg_zero, zero_div] at him
  have hne : ‖Complex.exp (-Complex.I * (a / 2 : ℝ)) * 1 + 1‖ ≠ 0 := norm_ne_zero_iff.mpr n2
  have := him.symm
  rw [div_eq_zero_iff] at this
  rcases this with h1 | h1
  · exact hs2 (by linarith)
  · exact hne h1

end Verif.Iq
