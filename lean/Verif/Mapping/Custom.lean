import Verif.Mapping.Constellation
import Mathlib.Analysis.SpecialFunctions.Complex.Circle
import Mathlib.Analysis.SpecialFunctions.Trigonometric.Bounds

/-!
# Custom constellations and 8-PSK

The branches of `PskQamMapping` with `mapping is not None`.
-/

namespace Verif.Mapping

open Complex

/-- `np.matmul(power_of_2, symbol_bits)`, `psk_qam_mapping.py` 127-128, most significant bit first. -/
def toIdx : List Bool → Nat
  | [] => 0
  | b :: t => (if b then 2 ^ t.length else 0) + toIdx t

/-- `mapping / sqrt(mean(abs(mapping) ** 2))`, `psk_qam_mapping.py` 96-99. -/
noncomputable def normalise (m : List ℂ) : List ℂ :=
  let energy := (m.map normSq).sum / m.length
  m.map fun x => x / (Real.sqrt energy : ℂ)

/-- The 8-PSK phases in units of π/4, `psk_qam_mapping.py` 37-39. -/
def psk8Phases : List ℤ := [0, 1, 3, 2, -1, -2, 4, -3]

/-- A point of the unit circle at `k * π / 4`. -/
noncomputable def eighth (k : ℤ) : ℂ := Complex.exp ((k * (Real.pi / 4) : ℝ) * Complex.I)

/-- `_psk8_map`, `psk_qam_mapping.py` 37-39. -/
noncomputable def psk8 : List ℂ := psk8Phases.map eighth

/-- `get_symbols` of one column with a table, `psk_qam_mapping.py` 125-129. -/
def getSymbolCustom (m : List ℂ) (w : List Bool) : Except PyErr ℂ :=
  match m[toIdx w]? with
  | some x => .ok x
  | none => .error .index

open Classical in
/-- `np.argmin` of a non-empty list: first index of the least value; the scan keeps the index of the
best value so far. -/
noncomputable def argminFrom (best : ℝ) (bi i : Nat) : List ℝ → Nat
  | [] => bi
  | d :: t => if d < best then argminFrom d i (i + 1) t else argminFrom best bi (i + 1) t

/-- `np.argmin(dist)`; `ValueError` for an empty list. -/
noncomputable def argmin : List ℝ → Except PyErr Nat
  | [] => .error .value
  | d :: t => .ok (argminFrom d 0 1 t)

/-- One pass of the loop of lines 209-213: write the bit, then rescale the whole array. -/
def customStep (n idx : Nat) (llr : List ℤ) (off : Nat) : List ℤ :=
  (llr.set off (if Nat.testBit idx (n - off - 1) then 1 else 0)).map fun x => x * 2 - 1

/-- `detect_bits` of one received value with a table and hard output, `psk_qam_mapping.py` 204-213:
the values before the final comparison.  `np.bitwise_and(i, 2 ** k) > 0` is the `k`-th bit of `i`. -/
noncomputable def customLlr (m : List ℂ) (n : Nat) (y : ℂ) : Except PyErr (List ℤ) := do
  let idx ← argmin (m.map fun x => ‖y - x‖)
  .ok ((List.range n).foldl (customStep n idx) (List.replicate n 0))

/-- `detect_bits` of one symbol with a table; soft output raises, `psk_qam_mapping.py` 203-217, 259. -/
noncomputable def detectCustom (m : List ℂ) (n : Nat) (soft : Bool) (y : ℂ) :
    Except PyErr (List Bool) :=
  if soft then .error .runtime
  else do
    let l ← customLlr m n y
    .ok (l.map fun x => decide (0 < x))

/-! ### Lemmas -/

theorem toIdx_lt (w : List Bool) : toIdx w < 2 ^ w.length := by
  induction w with
  | nil => simp [toIdx]
  | cons b t ih =>
    simp only [toIdx, List.length_cons, pow_succ]
    split <;> omega

theorem toIdx_testBit (w : List Bool) (i : Nat) (hi : i < w.length) :
    w[i]? = some (Nat.testBit (toIdx w) (w.length - i - 1)) := by
  induction w generalizing i with
  | nil => simp at hi
  | cons b t ih =>
    have hlt := toIdx_lt t
    cases i with
    | zero =>
      simp only [List.getElem?_cons_zero, List.length_cons, toIdx, Option.some.injEq]
      rw [show t.length + 1 - 0 - 1 = t.length by omega]
      cases b
      · simp [Nat.testBit_lt_two_pow hlt]
      · simp only [if_true]
        rw [Nat.testBit_two_pow_add_eq, Nat.testBit_lt_two_pow hlt]
        rfl
    | succ i =>
      have hi' : i < t.length := by simpa using hi
      rw [List.getElem?_cons_succ, ih i hi']
      congr 1
      simp only [List.length_cons, toIdx]
      rw [show t.length + 1 - (i + 1) - 1 = t.length - i - 1 by omega]
      cases b
      · simp
      · simp only [if_true]
        rw [Nat.testBit_two_pow_add_gt (by omega)]

theorem argminFrom_spec (l : List ℝ) (best : ℝ) (bi i k : Nat) (d : ℝ)
    (hk : l[k]? = some d) (hb : d < best) (hl : ∀ (j : Nat) (x : ℝ), l[j]? = some x → j ≠ k → d < x) :
    argminFrom best bi i l = i + k := by
  induction l generalizing best bi i k with
  | nil => simp at hk
  | cons a t ih =>
    cases k with
    | zero =>
      have ha : a = d := by simpa using hk
      subst ha
      rw [argminFrom, if_pos hb]
      have keep : ∀ (t : List ℝ) (bi i : Nat), (∀ x ∈ t, a < x) → argminFrom a bi i t = bi := by
        intro t
        induction t with
        | nil => intros; rfl
        | cons x t ih2 =>
          intro bi i h
          rw [argminFrom, if_neg (by have := h x (by simp); linarith)]
          exact ih2 bi (i + 1) fun y hy => h y (by simp [hy])
      rw [keep t i (i + 1)]
      · omega
      · intro x hx
        obtain ⟨j, hj, hjx⟩ := List.mem_iff_getElem.mp hx
        refine hl (j + 1) x ?_ (by omega)
        rw [List.getElem?_cons_succ, List.getElem?_eq_getElem hj, hjx]
    | succ k =>
      have hk' : t[k]? = some d := by simpa using hk
      have ht : ∀ (j : Nat) (x : ℝ), t[j]? = some x → j ≠ k → d < x :=
        fun j x h1 h2 => hl (j + 1) x (by simpa using h1) (by omega)
      rw [argminFrom]
      split
      · have := hl 0 a (by simp) (by omega)
        rw [ih a i (i + 1) k hk' this ht]
        omega
      · rw [ih best bi (i + 1) k hk' hb ht]
        omega

theorem argmin_spec (l : List ℝ) (k : Nat) (d : ℝ) (hk : l[k]? = some d)
    (hl : ∀ (j : Nat) (x : ℝ), l[j]? = some x → j ≠ k → d < x) : argmin l = .ok k := by
  cases l with
  | nil => simp at hk
  | cons a t =>
    cases k with
    | zero =>
      have ha : a = d := by simpa using hk
      subst ha
      have keep : ∀ (t : List ℝ) (bi i : Nat), (∀ x ∈ t, a < x) → argminFrom a bi i t = bi := by
        intro t
        induction t with
        | nil => intros; rfl
        | cons x t ih2 =>
          intro bi i h
          rw [argminFrom, if_neg (by have := h x (by simp); linarith)]
          exact ih2 bi (i + 1) fun y hy => h y (by simp [hy])
      rw [argmin, keep]
      intro x hx
      obtain ⟨j, hj, hjx⟩ := List.mem_iff_getElem.mp hx
      refine hl (j + 1) x ?_ (by omega)
      rw [List.getElem?_cons_succ, List.getElem?_eq_getElem hj, hjx]
    | succ k =>
      rw [argmin, argminFrom_spec t a 0 1 k d (by simpa using hk) (hl 0 a (by simp) (by omega))
        fun j x h1 h2 => hl (j + 1) x (by simpa using h1) (by omega)]
      congr 1; omega

/-- The loop leaves a positive value exactly where the bit is one, in spite of the repeated rescaling
of positions written before. -/
theorem custom_loop (n idx : Nat) (k : Nat) (hk : k ≤ n) :
    ((List.range k).foldl (customStep n idx) (List.replicate n 0)).length = n ∧
    ∀ (j : Nat), j < k → ∃ x, ((List.range k).foldl (customStep n idx) (List.replicate n 0))[j]? = some x ∧
      (if Nat.testBit idx (n - j - 1) then x = 1 else x ≤ -1) := by
  induction k with
  | zero => exact ⟨by simp, fun j hj => by omega⟩
  | succ k ih =>
    obtain ⟨h1, h2⟩ := ih (by omega)
    rw [List.range_succ, List.foldl_append]
    simp only [List.foldl_cons, List.foldl_nil]
    generalize (List.range k).foldl (customStep n idx) (List.replicate n 0) = l at h1 h2
    refine ⟨by simp [customStep, h1], ?_⟩
    intro j hj
    by_cases hjk : j = k
    · subst hjk
      simp only [customStep, List.getElem?_map]
      rw [List.getElem?_set_self (by omega)]
      refine ⟨_, rfl, ?_⟩
      split <;> simp
    · obtain ⟨x, hx, hs⟩ := h2 j (by omega)
      simp only [customStep, List.getElem?_map]
      rw [List.getElem?_set_ne (by omega), hx]
      refine ⟨_, rfl, ?_⟩
      split at hs
      · rename_i hb; rw [if_pos hb]; beta_reduce; omega
      · rename_i hb; rw [if_neg hb]; beta_reduce; omega

/-! ### C13, custom constellations -/

/-- C13 for a table of `2 ^ n` points: if the noise is smaller than half the distance of the sent
point to every other point, the detected bits are the sent bits. -/
theorem C13_custom (m : List ℂ) (n : Nat) (hm : m.length = 2 ^ n) (w : List Bool) (hw : w.length = n)
    (e : ℂ)
    (he : ∀ (j : Nat) (x y : ℂ), m[toIdx w]? = some x → m[j]? = some y → j ≠ toIdx w →
      ‖e‖ < ‖x - y‖ / 2) :
    ∃ x, getSymbolCustom m w = .ok x ∧ detectCustom m n false (x + e) = .ok w := by
  have hlt : toIdx w < m.length := by rw [hm, ← hw]; exact toIdx_lt w
  have hx : m[toIdx w]? = some m[toIdx w] := List.getElem?_eq_getElem hlt
  set x := m[toIdx w] with hxd
  have hmin : argmin (m.map fun p => ‖x + e - p‖) = .ok (toIdx w) := by
    apply argmin_spec _ _ ‖e‖
    · rw [List.getElem?_map, hx]; simp
    · intro j d hd hj
      rw [List.getElem?_map] at hd
      cases hy : m[j]? with
      | none => simp [hy] at hd
      | some y =>
        simp only [hy, Option.map_some, Option.some.injEq] at hd
        have h1 := he j x y hx hy hj
        have h2 : ‖x - y‖ ≤ ‖x + e - y‖ + ‖e‖ := by
          have : x - y = (x + e - y) - e := by ring
          rw [this]; exact norm_sub_le _ _
        rw [← hd]; linarith
  refine ⟨x, by simp [getSymbolCustom, hx], ?_⟩
  simp only [detectCustom, Bool.false_eq_true, if_false, customLlr, hmin, bind, Except.bind]
  congr 1
  obtain ⟨h1, h2⟩ := custom_loop n (toIdx w) n le_rfl
  apply List.ext_getElem?
  intro j
  by_cases hj : j < n
  · obtain ⟨v, hv, hs⟩ := h2 j hj
    rw [List.getElem?_map, hv, toIdx_testBit w j (by omega), hw]
    simp only [Option.map_some, Option.some.injEq]
    cases hb : Nat.testBit (toIdx w) (n - j - 1)
    · simp only [hb, Bool.false_eq_true, if_false] at hs
      simp only [decide_eq_false_iff_not]; omega
    · simp only [hb, if_true] at hs
      simp [hs]
  · rw [List.getElem?_eq_none (by simp [h1]; omega), List.getElem?_eq_none (by omega)]

/-- C13: soft detection with a table is refused, for every table and every input. -/
theorem C13_custom_soft (m : List ℂ) (n : Nat) (y : ℂ) :
    detectCustom m n true y = .error .runtime := rfl

/-! ### C14, custom constellations -/

/-- C14: the constructor's normalisation gives every non-zero table mean energy one. -/
theorem C14_normalised (m : List ℂ) (h : ∃ x ∈ m, x ≠ 0) :
    (normalise m).length = m.length ∧ ((normalise m).map normSq).sum / (normalise m).length = 1 := by
  have hnn : ∀ l : List ℂ, 0 ≤ (l.map normSq).sum := by
    intro l
    apply List.sum_nonneg
    intro x hx
    obtain ⟨y, _, rfl⟩ := List.mem_map.mp hx
    exact normSq_nonneg y
  have hpos : 0 < (m.map normSq).sum := by
    obtain ⟨x, hx, h0⟩ := h
    have := List.single_le_sum (l := m.map normSq)
      (fun y hy => by obtain ⟨z, _, rfl⟩ := List.mem_map.mp hy; exact normSq_nonneg z)
      (normSq x) (List.mem_map_of_mem hx)
    have h1 : 0 < normSq x := normSq_pos.mpr h0
    linarith
  have hlen : (0 : ℝ) < m.length := by
    obtain ⟨x, hx, _⟩ := h
    exact_mod_cast List.length_pos_of_mem hx
  set E := (m.map normSq).sum / m.length with hE
  have hEp : 0 < E := by positivity
  have hscale : ∀ l : List ℂ, ((l.map fun x => x / (Real.sqrt E : ℂ)).map normSq).sum =
      (l.map normSq).sum / E := by
    intro l
    induction l with
    | nil => simp
    | cons a t ih =>
      simp only [List.map_cons, List.sum_cons, ih, add_div]
      congr 1
      rw [normSq_div, normSq_ofReal, ← sq, Real.sq_sqrt hEp.le]
  refine ⟨by simp [normalise], ?_⟩
  have : normalise m = m.map fun x => x / (Real.sqrt E : ℂ) := rfl
  rw [this, hscale, List.length_map, hE]
  field_simp

/-- C14: the normalisation keeps distinct points distinct. -/
theorem C14_normalised_injective (m : List ℂ) (h : ∃ x ∈ m, x ≠ 0) (i j : Nat)
    (hi : i < m.length) (hj : j < m.length) (hne : m[i]? ≠ m[j]?) :
    (normalise m)[i]? ≠ (normalise m)[j]? := by
  have h1 := (C14_normalised m h).2
  set E := (m.map normSq).sum / m.length with hE
  have hs : Real.sqrt E ≠ 0 := by
    intro h0
    have : normalise m = m.map fun _ => (0 : ℂ) := by
      unfold normalise
      simp only [← hE, h0]
      simp
    rw [this] at h1
    simp at h1
  have : normalise m = m.map fun x => x / (Real.sqrt E : ℂ) := rfl
  rw [this, List.getElem?_map, List.getElem?_map, List.getElem?_eq_getElem hi,
    List.getElem?_eq_getElem hj]
  rw [List.getElem?_eq_getElem hi, List.getElem?_eq_getElem hj] at hne
  simp only [Option.map_some, ne_eq, Option.some.injEq] at hne ⊢
  intro he
  apply hne
  have hc : (Real.sqrt E : ℂ) ≠ 0 := by exact_mod_cast hs
  field_simp at he
  exact he

/-! ### 8-PSK -/

theorem normSq_eighth_sub (j k : ℤ) :
    normSq (eighth j - eighth k) = 2 - 2 * Real.cos (((j - k : ℤ) : ℝ) * (Real.pi / 4)) := by
  unfold eighth
  rw [normSq_apply]
  simp only [sub_re, sub_im, exp_ofReal_mul_I_re, exp_ofReal_mul_I_im]
  push_cast
  rw [show ((j : ℝ) - k) * (Real.pi / 4) = j * (Real.pi / 4) - k * (Real.pi / 4) by ring, Real.cos_sub]
  have h1 := Real.sin_sq_add_cos_sq (j * (Real.pi / 4))
  have h2 := Real.sin_sq_add_cos_sq (k * (Real.pi / 4))
  nlinarith

theorem cos_eighth (d : ℤ) : Real.cos ((d : ℝ) * (Real.pi / 4)) =
    match d % 8 with
    | 0 => 1
    | 1 => Real.sqrt 2 / 2
    | 2 => 0
    | 3 => -(Real.sqrt 2 / 2)
    | 4 => -1
    | 5 => -(Real.sqrt 2 / 2)
    | 6 => 0
    | _ => Real.sqrt 2 / 2 := by
  have hd : (d : ℝ) * (Real.pi / 4) =
      ((d % 8 : ℤ) : ℝ) * (Real.pi / 4) + ((d / 8 : ℤ) : ℝ) * (2 * Real.pi) := by
    have h : (d : ℝ) = ((8 * (d / 8) + d % 8 : ℤ) : ℝ) := by
      rw [Int.mul_ediv_add_emod]
    rw [h]; push_cast; ring
  rw [hd, Real.cos_add_int_mul_two_pi]
  have h0 : 0 ≤ d % 8 := Int.emod_nonneg _ (by norm_num)
  have h8 : d % 8 < 8 := Int.emod_lt_of_pos _ (by norm_num)
  generalize d % 8 = r at h0 h8
  have : r = 0 ∨ r = 1 ∨ r = 2 ∨ r = 3 ∨ r = 4 ∨ r = 5 ∨ r = 6 ∨ r = 7 := by omega
  rcases this with rfl | rfl | rfl | rfl | rfl | rfl | rfl | rfl
  · simp
  · simp
  · rw [show ((2 : ℤ) : ℝ) * (Real.pi / 4) = Real.pi / 2 by push_cast; ring]; simp
  · rw [show ((3 : ℤ) : ℝ) * (Real.pi / 4) = Real.pi - Real.pi / 4 by push_cast; ring,
      Real.cos_pi_sub]; simp
  · rw [show ((4 : ℤ) : ℝ) * (Real.pi / 4) = Real.pi by push_cast; ring]; simp
  · rw [show ((5 : ℤ) : ℝ) * (Real.pi / 4) = Real.pi / 4 + Real.pi by push_cast; ring,
      Real.cos_add_pi]; simp
  · rw [show ((6 : ℤ) : ℝ) * (Real.pi / 4) = Real.pi / 2 + Real.pi by push_cast; ring,
      Real.cos_add_pi]; simp
  · rw [show ((7 : ℤ) : ℝ) * (Real.pi / 4) = -(Real.pi / 4) + 2 * Real.pi by push_cast; ring,
      Real.cos_add_two_pi, Real.cos_neg]; simp

theorem cos_eighth_le (d : ℤ) (hd : d % 8 ≠ 0) :
    Real.cos ((d : ℝ) * (Real.pi / 4)) ≤ Real.sqrt 2 / 2 ∧
      (Real.cos ((d : ℝ) * (Real.pi / 4)) = Real.sqrt 2 / 2 → d % 8 = 1 ∨ d % 8 = 7) := by
  have hs : 0 < Real.sqrt 2 := Real.sqrt_pos.mpr (by norm_num)
  have hneg : ¬ -(Real.sqrt 2 / 2) = Real.sqrt 2 / 2 := fun h => by
    have h2 : (0 : ℝ) < Real.sqrt 2 / 2 := by positivity
    have h3 : -(Real.sqrt 2 / 2) < 0 := neg_neg_of_pos h2
    rw [h] at h3
    exact lt_asymm h2 h3
  rw [cos_eighth]
  have h0 : 0 ≤ d % 8 := Int.emod_nonneg _ (by norm_num)
  have h8 : d % 8 < 8 := Int.emod_lt_of_pos _ (by norm_num)
  generalize d % 8 = r at *
  have : r = 1 ∨ r = 2 ∨ r = 3 ∨ r = 4 ∨ r = 5 ∨ r = 6 ∨ r = 7 := by omega
  rcases this with rfl | rfl | rfl | rfl | rfl | rfl | rfl <;>
    constructor <;> (try simp) <;> (try linarith)
  · exact hneg
  · exact hneg

/-- C14: 8-PSK is unit energy, its points are pairwise at least `sqrt (2 - sqrt 2)` apart and Gray
labelled: pairs at that distance have words that differ in one bit. -/
theorem C14_psk8 :
    psk8.length = 8 ∧ (∀ x ∈ psk8, ‖x‖ = 1) ∧
    ∀ w w' : List Bool, w.length = 3 → w'.length = 3 → w ≠ w' → ∀ x y : ℂ,
      getSymbolCustom psk8 w = .ok x → getSymbolCustom psk8 w' = .ok y →
        2 - Real.sqrt 2 ≤ normSq (x - y) ∧
          (normSq (x - y) = 2 - Real.sqrt 2 → hamming w w' = 1) := by
  refine ⟨rfl, ?_, ?_⟩
  · intro x hx
    obtain ⟨k, _, rfl⟩ := List.mem_map.mp hx
    unfold eighth
    exact norm_exp_ofReal_mul_I _
  · intro w w' hw hw' hne x y hx hy
    have key : ∃ j k : ℤ, x = eighth j ∧ y = eighth k ∧ (j - k) % 8 ≠ 0 ∧
        ((j - k) % 8 = 1 ∨ (j - k) % 8 = 7 → hamming w w' = 1) := by
      have tab : ∀ u : List Bool, u.length = 3 → ∀ z, getSymbolCustom psk8 u = .ok z →
          ∃ j : ℤ, psk8Phases[toIdx u]? = some j ∧ z = eighth j := by
        intro u hu z hz
        simp only [getSymbolCustom, psk8, List.getElem?_map] at hz
        cases h : psk8Phases[toIdx u]? with
        | none => simp [h] at hz
        | some j =>
          simp only [h, Option.map_some, Except.ok.injEq] at hz
          exact ⟨j, rfl, hz.symm⟩
      obtain ⟨j, hj, rfl⟩ := tab w hw x hx
      obtain ⟨k, hk, rfl⟩ := tab w' hw' y hy
      refine ⟨j, k, rfl, rfl, ?_⟩
      match w, hw, w', hw' with
      | [a, b, c], _, [d, e, f], _ =>
        clear hx hy tab
        have all : ∀ a b c d e f : Bool, [a, b, c] ≠ [d, e, f] →
            ((psk8Phases[toIdx [a, b, c]]?.getD 0 - psk8Phases[toIdx [d, e, f]]?.getD 0) % 8 ≠ 0 ∧
              ((psk8Phases[toIdx [a, b, c]]?.getD 0 - psk8Phases[toIdx [d, e, f]]?.getD 0) % 8 = 1 ∨
                (psk8Phases[toIdx [a, b, c]]?.getD 0 - psk8Phases[toIdx [d, e, f]]?.getD 0) % 8 = 7 →
                  hamming [a, b, c] [d, e, f] = 1)) := by decide +kernel
        have := all a b c d e f hne
        rw [hj, hk] at this
        exact this
    obtain ⟨j, k, rfl, rfl, h1, h2⟩ := key
    obtain ⟨h3, h4⟩ := cos_eighth_le (j - k) h1
    rw [normSq_eighth_sub]
    refine ⟨by linarith, fun h => h2 (h4 (by linarith))⟩

/-- C13 for 8-PSK: noise below half the minimum distance, `sqrt (2 - sqrt 2) / 2`, never changes the
detected word. -/
theorem C13_psk8 (w : List Bool) (hw : w.length = 3) (e : ℂ)
    (he : ‖e‖ < Real.sqrt (2 - Real.sqrt 2) / 2) :
    ∃ x, getSymbolCustom psk8 w = .ok x ∧ detectCustom psk8 3 false (x + e) = .ok w := by
  apply C13_custom psk8 3 rfl w hw e
  intro j x y hx hy hj
  have hj8 : j < 8 := by
    by_contra h
    rw [List.getElem?_eq_none (by rw [C14_psk8.1]; omega)] at hy
    simp at hy
  have hidx : toIdx (wordOf 3 j) = j := by
    have : ∀ j < 8, toIdx (wordOf 3 j) = j := by decide +kernel
    exact this j hj8
  have h := (C14_psk8.2.2 w (wordOf 3 j) hw (by simp [wordOf]) (by
    rintro rfl; exact hj hidx.symm) x y (by simp [getSymbolCustom, hx])
    (by simp [getSymbolCustom, hidx, hy])).1
  have h2 : Real.sqrt (2 - Real.sqrt 2) ≤ ‖x - y‖ := by
    rw [Real.sqrt_le_left (norm_nonneg _), Complex.sq_norm]; exact h
  linarith

/-- Non-vacuity of `C13_psk8`: noise `1/4` on the word `101`. -/
example : ([true, false, true] : List Bool).length = 3 ∧
    ‖(1 / 4 : ℂ)‖ < Real.sqrt (2 - Real.sqrt 2) / 2 := by
  refine ⟨rfl, ?_⟩
  have h1 : Real.sqrt 2 < 3 / 2 := by rw [Real.sqrt_lt' (by norm_num)]; norm_num
  have h2 : (1 / 2 : ℝ) < Real.sqrt (2 - Real.sqrt 2) := by
    rw [Real.lt_sqrt (by norm_num)]; norm_num; linarith
  have h3 : ‖(1 / 4 : ℂ)‖ = 1 / 4 := by norm_num
  rw [h3]; linarith

/-- Non-vacuity of `C14_normalised`: a table that is not normalised. -/
example : ∃ x ∈ ([3, 1, -1, -3] : List ℂ), x ≠ 0 := ⟨3, by simp, by norm_num⟩

end Verif.Mapping
