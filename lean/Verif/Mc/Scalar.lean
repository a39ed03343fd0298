import Verif.Mc.Queue
import Mathlib.Analysis.SpecialFunctions.Sqrt
import Mathlib.Tactic.FieldSimp

/-!
# C19: scalar evaluation results

Model of `ScalarEvaluationResult` (`hermespy/core/pymonte/scalar.py` 36-186) with real-valued
artifacts.  The assumed cumulative distribution `_scalar_cdf` is an arbitrary function.
-/

namespace Verif.Mc

noncomputable section

/-- The configuration and the three accumulator arrays (`scalar.py` 85-91). -/
structure ScalarResult where
  accuracy : ℝ
  confidence : ℝ
  minSamples : Nat
  cdf : ℝ → ℝ
  sums : Coord → ℝ
  sqSums : Coord → ℝ
  count : Coord → Nat

/-- `__init__` (`scalar.py` 45-92) with its three argument checks. -/
def ScalarResult.init (accuracy confidence : ℝ) (minSamples : Nat) (cdf : ℝ → ℝ) :
    Except PyErr ScalarResult :=
  open Classical in
  if confidence > 1 ∨ confidence < 0 then .error .value
  else if accuracy < 0 then .error .value
  else if minSamples < 2 then .error .value
  else .ok ⟨accuracy, confidence, minSamples, cdf, fun _ => 0, fun _ => 0, fun _ => 0⟩

/-- The `std` of `scalar.py` 120. -/
def stdOf (sum sq : ℝ) (count : Nat) : ℝ :=
  Real.sqrt ((sq - sum ^ 2 / count) / (count - 1))

/-- `add_artifact` (`scalar.py` 101-125); `none` is an artifact without scalar representation. -/
def ScalarResult.add (r : ScalarResult) (c : Coord) (scalar : Option ℝ)
    (computeConfidence : Bool) : ScalarResult × Bool :=
  open Classical in
  match scalar with
  | none => (r, false)
  | some v =>
    let sum := r.sums c + v
    let sq := r.sqSums c + v ^ 2
    let count := r.count c + 1
    let r' := { r with
      sums := setAt r.sums c sum
      sqSums := setAt r.sqSums c sq
      count := setAt r.count c count }
    if computeConfidence = true ∧ count % r.minSamples = 0 then
      let std := stdOf sum sq count
      if std > 0 then
        (r', decide (2 * (1 - r.cdf (Real.sqrt count * r.accuracy / std)) < r.confidence))
      else (r', false)
    else (r', false)

/-- One entry of `to_array` (`scalar.py` 183-186); `none` stands for `0/0 = nan`. -/
def ScalarResult.toArray (r : ScalarResult) (c : Coord) : Option ℝ :=
  if r.count c = 0 then none else some (r.sums c / r.count c)

/-- A history of `add_artifact` calls. -/
def ScalarResult.addAll (r : ScalarResult) : List (Coord × Option ℝ × Bool) → ScalarResult
  | [] => r
  | a :: as => (r.add a.1 a.2.1 a.2.2).1.addAll as

/-! ## Specification -/

/-- The scalars contributed to section `c`, in order. -/
def scalarsOf (c : Coord) (hist : List (Coord × Option ℝ × Bool)) : List ℝ :=
  hist.filterMap fun a => if a.1 = c then a.2.1 else none

/-- Arithmetic mean. -/
def mean (xs : List ℝ) : Option ℝ := if xs = [] then none else some (xs.sum / xs.length)

/-- Unbiased sample variance. -/
def sampleVar (xs : List ℝ) : ℝ :=
  (xs.map fun x => (x - xs.sum / xs.length) ^ 2).sum / (xs.length - 1)

/-! ## Lemmas -/

theorem add_state (r : ScalarResult) (c : Coord) (s : Option ℝ) (b : Bool) :
    (r.add c s b).1 = match s with
      | none => r
      | some v => { r with
          sums := setAt r.sums c (r.sums c + v)
          sqSums := setAt r.sqSums c (r.sqSums c + v ^ 2)
          count := setAt r.count c (r.count c + 1) } := by
  unfold ScalarResult.add
  cases s with
  | none => rfl
  | some v =>
    dsimp only
    split
    · split <;> rfl
    · rfl

/-- The accumulators relative to the scalars already booked. -/
def Acc (r : ScalarResult) (f : Coord → List ℝ) : Prop :=
  ∀ c, r.sums c = (f c).sum ∧ r.sqSums c = ((f c).map (· ^ 2)).sum ∧ r.count c = (f c).length

theorem acc_add (r : ScalarResult) (f : Coord → List ℝ) (h : Acc r f) (a : Coord × Option ℝ × Bool) :
    Acc (r.add a.1 a.2.1 a.2.2).1 (fun c => f c ++ scalarsOf c [a]) := by
  obtain ⟨c0, s, b⟩ := a
  intro c
  obtain ⟨h1, h2, h3⟩ := h c
  rw [add_state]
  cases s with
  | none => simp [scalarsOf, h1, h2, h3]
  | some v =>
    by_cases hc : c0 = c
    · subst hc
      simp [scalarsOf, setAt, h1, h2, h3]
    · have hc' : c ≠ c0 := fun h => hc h.symm
      simp [scalarsOf, setAt, hc, hc', h1, h2, h3]

theorem scalarsOf_append (c : Coord) (a b : List (Coord × Option ℝ × Bool)) :
    scalarsOf c (a ++ b) = scalarsOf c a ++ scalarsOf c b := by
  simp [scalarsOf, List.filterMap_append]

theorem acc_addAll (hist : List (Coord × Option ℝ × Bool)) (r : ScalarResult) (f : Coord → List ℝ)
    (h : Acc r f) : Acc (r.addAll hist) (fun c => f c ++ scalarsOf c hist) := by
  induction hist generalizing r f with
  | nil => simpa [ScalarResult.addAll, scalarsOf] using h
  | cons a as ih =>
    have := ih _ _ (acc_add r f h a)
    rw [ScalarResult.addAll]
    have he : (fun c => f c ++ scalarsOf c (a :: as))
        = fun c => (f c ++ scalarsOf c [a]) ++ scalarsOf c as := by
      funext c
      rw [List.append_assoc, ← scalarsOf_append]
      rfl
    rw [he]
    exact this

theorem acc_init (accuracy confidence : ℝ) (m : Nat) (cdf : ℝ → ℝ) (r : ScalarResult)
    (h : ScalarResult.init accuracy confidence m cdf = .ok r) : Acc r (fun _ => []) := by
  unfold ScalarResult.init at h
  split at h
  · simp at h
  · split at h
    · simp at h
    · split at h
      · simp at h
      · injection h with h; subst h
        intro c; simp

theorem addAll_config (hist : List (Coord × Option ℝ × Bool)) (r : ScalarResult) :
    (r.addAll hist).minSamples = r.minSamples ∧ (r.addAll hist).confidence = r.confidence ∧
      (r.addAll hist).accuracy = r.accuracy ∧ (r.addAll hist).cdf = r.cdf := by
  induction hist generalizing r with
  | nil => simp [ScalarResult.addAll]
  | cons a as ih =>
    rw [ScalarResult.addAll]
    obtain ⟨h1, h2, h3, h4⟩ := ih (r.add a.1 a.2.1 a.2.2).1
    rw [h1, h2, h3, h4, add_state]
    cases a.2.1 <;> simp

/-- Sum of squared deviations. -/
theorem sum_sq_dev (xs : List ℝ) (m : ℝ) :
    (xs.map fun x => (x - m) ^ 2).sum
      = (xs.map (· ^ 2)).sum - 2 * m * xs.sum + xs.length * m ^ 2 := by
  induction xs with
  | nil => simp
  | cons a xs ih =>
    simp only [List.map_cons, List.sum_cons, List.length_cons, ih]
    push_cast
    ring

theorem stdOf_eq (xs : List ℝ) (h : xs ≠ []) :
    stdOf xs.sum ((xs.map (· ^ 2)).sum) xs.length = Real.sqrt (sampleVar xs) := by
  unfold stdOf sampleVar
  rw [sum_sq_dev]
  have hl : (xs.length : ℝ) ≠ 0 := by
    have := List.length_pos_iff.2 h
    exact_mod_cast (by omega : xs.length ≠ 0)
  congr 2
  field_simp
  ring

/-! ## Properties -/

/-- **C19.** After every history of artifacts, the reported scalar of each section is the
arithmetic mean of the scalars added for that section (undefined if there were none). -/
theorem C19_mean (accuracy confidence : ℝ) (m : Nat) (cdf : ℝ → ℝ) (r : ScalarResult)
    (hr : ScalarResult.init accuracy confidence m cdf = .ok r)
    (hist : List (Coord × Option ℝ × Bool)) (c : Coord) :
    (r.addAll hist).toArray c = mean (scalarsOf c hist) := by
  have h := acc_addAll hist r _ (acc_init _ _ _ _ r hr) c
  simp only [List.nil_append] at h
  obtain ⟨h1, _, h3⟩ := h
  unfold ScalarResult.toArray mean
  rw [h1, h3]
  by_cases he : scalarsOf c hist = []
  · simp [he]
  · have := List.length_pos_iff.2 he
    rw [if_neg (by omega), if_neg he]

/-- **C19, schedule independence.** The reported scalars do not depend on the order in which the
artifacts arrive. -/
theorem C19_order_independent (accuracy confidence : ℝ) (m : Nat) (cdf : ℝ → ℝ) (r : ScalarResult)
    (hr : ScalarResult.init accuracy confidence m cdf = .ok r)
    (hist hist' : List (Coord × Option ℝ × Bool)) (hp : hist.Perm hist') (c : Coord) :
    (r.addAll hist).toArray c = (r.addAll hist').toArray c := by
  rw [C19_mean _ _ _ _ r hr, C19_mean _ _ _ _ r hr]
  have hp' : (scalarsOf c hist).Perm (scalarsOf c hist') := hp.filterMap _
  unfold mean
  by_cases he : scalarsOf c hist = []
  · have : scalarsOf c hist' = [] := by
      have := hp'.length_eq
      rw [he] at this
      exact List.length_eq_zero_iff.1 this.symm
    simp [he, this]
  · have : scalarsOf c hist' ≠ [] := by
      intro h
      have := hp'.length_eq
      rw [h] at this
      exact he (List.length_eq_zero_iff.1 this)
    rw [if_neg he, if_neg this, hp'.sum_eq, hp'.length_eq]

/-- **C19, locality.** An artifact of one section never changes another section. -/
theorem C19_local (r : ScalarResult) (c c' : Coord) (s : Option ℝ) (b : Bool) (h : c' ≠ c) :
    (r.add c s b).1.toArray c' = r.toArray c' := by
  rw [add_state]
  cases s with
  | none => rfl
  | some v => simp [ScalarResult.toArray, setAt, h]

/-- **C19, early stopping.** `add_artifact` reports confidence exactly if confidence evaluation
was requested, the artifact is a scalar, the number of scalars of the section is a multiple of
the configured minimum, their unbiased sample standard deviation is positive, and the two-sided
tail bound is below the requirement. -/
theorem C19_early_stop (accuracy confidence : ℝ) (m : Nat) (cdf : ℝ → ℝ) (r : ScalarResult)
    (hr : ScalarResult.init accuracy confidence m cdf = .ok r)
    (hist : List (Coord × Option ℝ × Bool)) (c : Coord) (s : Option ℝ) (b : Bool) :
    ((r.addAll hist).add c s b).2 = true ↔
      b = true ∧ s ≠ none ∧
      (scalarsOf c (hist ++ [(c, s, b)])).length % m = 0 ∧
      0 < sampleVar (scalarsOf c (hist ++ [(c, s, b)])) ∧
      2 * (1 - cdf (Real.sqrt (scalarsOf c (hist ++ [(c, s, b)])).length * accuracy
        / Real.sqrt (sampleVar (scalarsOf c (hist ++ [(c, s, b)]))))) < confidence := by
  have h := acc_addAll hist r _ (acc_init _ _ _ _ r hr) c
  simp only [List.nil_append] at h
  obtain ⟨h1, h2, h3⟩ := h
  obtain ⟨g1, g2, g3, g4⟩ := addAll_config hist r
  have hcfg : r.minSamples = m ∧ r.confidence = confidence ∧ r.accuracy = accuracy ∧
      r.cdf = cdf := by
    unfold ScalarResult.init at hr
    split at hr
    · simp at hr
    · split at hr
      · simp at hr
      · split at hr
        · simp at hr
        · injection hr with hr; subst hr; simp
  cases s with
  | none => simp [ScalarResult.add]
  | some v =>
    have hs : scalarsOf c (hist ++ [(c, some v, b)]) = scalarsOf c hist ++ [v] := by
      rw [scalarsOf_append]; simp [scalarsOf]
    set xs := scalarsOf c hist ++ [v] with hxs
    have hne : xs ≠ [] := by simp [hxs]
    have e1 : (r.addAll hist).sums c + v = xs.sum := by rw [h1, hxs]; simp
    have e2 : (r.addAll hist).sqSums c + v ^ 2 = (xs.map (· ^ 2)).sum := by rw [h2, hxs]; simp
    have e3 : (r.addAll hist).count c + 1 = xs.length := by rw [h3, hxs]; simp
    rw [hs]
    unfold ScalarResult.add
    dsimp only
    rw [e1, e2, e3, stdOf_eq xs hne, g1, g2, g3, g4, hcfg.1, hcfg.2.1, hcfg.2.2.1, hcfg.2.2.2]
    by_cases hb : b = true ∧ xs.length % m = 0
    · rw [if_pos hb]
      by_cases hv : Real.sqrt (sampleVar xs) > 0
      · rw [if_pos hv]
        simp only [decide_eq_true_eq, ne_eq, reduceCtorEq, not_false_eq_true, true_and]
        have := Real.sqrt_pos.1 hv
        simp [hb.1, hb.2, this]
      · rw [if_neg hv]
        have : ¬ 0 < sampleVar xs := fun h => hv (Real.sqrt_pos.2 h)
        simp [this]
    · rw [if_neg hb]
      simp only [Bool.false_eq_true, false_iff]
      rintro ⟨h1, _, h2, _⟩
      exact hb ⟨h1, h2⟩

/-- The constructor accepts the documented parameter range, e.g. the defaults. -/
example : ∃ r, ScalarResult.init 0 1 1024 (fun _ => 0) = .ok r := by
  unfold ScalarResult.init
  rw [if_neg (by norm_num), if_neg (by norm_num), if_neg (by norm_num)]
  exact ⟨_, rfl⟩

/-- Three artifacts of two sections, in an order mixing the sections. -/
example (r : ScalarResult) (hr : ScalarResult.init 0 1 1024 (fun _ => 0) = .ok r) :
    (r.addAll [([0], some 1, true), ([1], some 5, true), ([0], some 2, false),
      ([0], none, false)]).toArray [0] = some (3 / 2) := by
  rw [C19_mean _ _ _ _ r hr]
  simp [scalarsOf, mean]
  norm_num

end

end Verif.Mc
