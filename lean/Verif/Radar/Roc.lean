import Verif.Radar.Detect
import Mathlib.Order.Bounds.Basic
import Mathlib.Algebra.Order.Floor.Ring
import Mathlib.Algebra.Order.Archimedean.Real.Basic

/-!
# C97: receiver operating characteristics

`RocEvaluation`, `RocEvaluationResult` and `ReceiverOperatingCharacteristic`, `radar/evaluators.py` 433-1104.  Values are real
numbers without NaN; dropping a scenario succeeds and yields a reception with a cube for every receiver of every device.
-/

namespace Verif.RadarRoc

open Verif.Radar

/-- `min()` of the entries of an array, which is not empty where it is used. -/
noncomputable def lowest : List ℝ → ℝ
  | [] => 0
  | x :: xs => xs.foldl min x

/-- `max()` of the entries of an array, which is not empty where it is used. -/
noncomputable def highest : List ℝ → ℝ
  | [] => 0
  | x :: xs => xs.foldl max x

/-- Values of the null and of the alternative hypothesis, `RocArtifact`, `radar/evaluators.py` 433-466. -/
abbrev Artifact := ℝ × ℝ

/-- `RocEvaluation.artifact`, `radar/evaluators.py` 502-507; the maximum of an empty array raises a `ValueError`. -/
noncomputable def artifact (h0 h1 : Cube ℝ) : Except PyErr Artifact :=
  if h0.values = [] ∨ h1.values = [] then .error .value
  else .ok (highest h0.values, highest h1.values)

/-- `RocEvaluationResult`: the numbers of sample points of the grid, the artifacts of each coordinate and the number of
thresholds, `radar/evaluators.py` 531-566. -/
structure Roc where
  shape : List ℕ
  store : List ℕ → List Artifact
  thresholds : ℕ

/-- `RocEvaluationResult.__init__`, `radar/evaluators.py` 537-566. -/
def Roc.new (shape : List ℕ) (thresholds : ℕ) : Roc := ⟨shape, fun _ => [], thresholds⟩

/-- Coordinates as tuples of indices into an array: too many or too large ones raise an `IndexError`, too few select an
array, which has no `append`. -/
def locate (shape coords : List ℕ) : Except PyErr Unit :=
  match shape, coords with
  | [], [] => .ok ()
  | _ :: _, [] => .error .attribute
  | [], _ :: _ => .error .index
  | n :: shape, c :: coords =>
    match locate shape coords with
    | .error .index => .error .index
    | other => if n ≤ c then .error .index else other

/-- `RocEvaluationResult.add_artifact`, `radar/evaluators.py` 568-573. -/
def Roc.add (r : Roc) (coords : List ℕ) (a : Artifact) : Except PyErr Roc :=
  match locate r.shape coords with
  | .error e => .error e
  | .ok () => .ok { r with store := fun c => if c = coords then r.store c ++ [a] else r.store c }

/-- A history of artifacts added to a result. -/
def Roc.collect (r : Roc) : List (List ℕ × Artifact) → Except PyErr Roc
  | [] => .ok r
  | (c, a) :: rest => match r.add c a with
    | .error e => .error e
    | .ok s => s.collect rest

/-- `np.linspace(lo, hi, n, endpoint=True)[t]`. -/
noncomputable def linspace (lo hi : ℝ) (n t : ℕ) : ℝ := if n = 1 then lo else lo + t * ((hi - lo) / ((n : ℝ) - 1))

/-- `np.mean(values >= threshold)`. -/
noncomputable def fraction (values : List ℝ) (threshold : ℝ) : ℝ :=
  (values.countP (fun x => decide (threshold ≤ x)) : ℝ) / values.length

/-- `RocEvaluationResult.to_array()` at a coordinate, `radar/evaluators.py` 624-646: pairs of detection and false alarm
probability per threshold, `none` for NaN. -/
noncomputable def Roc.curve (r : Roc) (coords : List ℕ) : List (Option (ℝ × ℝ)) :=
  let line := r.store coords
  let data := line.flatMap (fun a => [a.1, a.2])
  (List.range r.thresholds).map (fun (t : ℕ) =>
    if data = [] then none
    else
      let threshold := linspace (lowest data) (highest data) r.thresholds t
      some (fraction (line.map Prod.snd) threshold, fraction (line.map Prod.fst) threshold))

/-- The points of the line drawn for a coordinate, `RocEvaluationResult._update_visualization`, `radar/evaluators.py` 611-622.
`probabilities[coords + (None, 1)]` holds both probabilities of threshold 1, `probabilities[coords + (None, 0)]` those of
threshold 0; matplotlib pairs the entries of both.  No points are drawn for NaN. -/
noncomputable def Roc.plot (r : Roc) (coords : List ℕ) : Except PyErr (List (ℝ × ℝ)) :=
  match (r.curve coords)[1]?, (r.curve coords)[0]? with
  | some (some x), some (some y) => .ok [(x.1, y.1), (x.2, y.2)]
  | some _, some _ => .ok []
  | _, _ => .error .index

/-- `ReceiverOperatingCharacteristic.initialize_result`, `radar/evaluators.py` 815-817, of an evaluator with the number of
thresholds given; the default of the result, line 541, is used. -/
def initializeResult (_configured : ℕ) (shape : List ℕ) : Roc := Roc.new shape 101

/-- A scenario: transmitters and receivers of its devices, which of them are radars, the order in which iterating the set
`operators` (`core/scenario.py` 285-298) visits them, and the cubes of drops by device and index of the receiver. -/
structure Scenario where
  devices : List (List ℕ × List ℕ)
  radar : ℕ → Bool
  order : List ℕ
  cube : ℕ → ℕ → ℕ → Cube ℝ

/-- The order visits exactly the operators, each once. -/
def Scenario.Lawful (s : Scenario) : Prop :=
  s.order.Nodup ∧ ∀ o, o ∈ s.order ↔ ∃ d ∈ s.devices, o ∈ d.1 ∨ o ∈ d.2

/-- `num_operators`, `core/scenario.py` 300-312. -/
def Scenario.numOperators (s : Scenario) : ℕ := (s.devices.map (fun d => d.1.length + d.2.length)).sum

/-- Selection of an operator, `radar/evaluators.py` 867-887 and 889-908. -/
def pick (s : Scenario) (given : Option ℕ) : Except PyErr ℕ :=
  match given with
  | some o => if o ∈ s.order then .ok o else .error .value
  | none =>
    if s.numOperators < 1 then .error .value
    else match s.order.find? s.radar with
      | none => .error .value
      | some o => .ok o

/-- Device and receiver index of an operator, `radar/evaluators.py` 915-922: the last device wins. -/
def place (o : ℕ) (devices : List (List ℕ × List ℕ)) (first : ℕ) (found : Option (ℕ × ℕ)) : Option (ℕ × ℕ) :=
  match devices with
  | [] => found
  | d :: rest => place o rest (first + 1) (if o ∈ d.2 then some (first, d.2.idxOf o) else found)

/-- The artifacts of drops, `radar/evaluators.py` 941-954. -/
noncomputable def drops (r : Roc) (h0 h1 : ℕ → Cube ℝ) : List ℕ → Except PyErr Roc
  | [] => .ok r
  | i :: rest => match artifact (h0 i) (h1 i) with
    | .error e => .error e
    | .ok a => match r.add [0] a with
      | .error e => .error e
      | .ok s => drops s h0 h1 rest

/-- `ReceiverOperatingCharacteristic.FromScenarios`, `radar/evaluators.py` 819-956. -/
noncomputable def fromScenarios (s0 s1 : Scenario) (num : ℤ) (given0 given1 : Option ℕ) (thresholds : ℕ) : Except PyErr Roc :=
  if num < 1 then .error .value
  else match pick s0 given0 with
    | .error e => .error e
    | .ok o0 => match pick s1 given1 with
      | .error e => .error e
      | .ok o1 => match place o0 s0.devices 0 none, place o1 s1.devices 0 none with
        | some (d0, k0), some (d1, k1) =>
          drops (Roc.new [1] thresholds) (fun i => s0.cube i d0 k0) (fun i => s1.cube i d1 k1) (List.range num.toNat)
        | _, _ => .error .value

/-- Evaluation of all pairs of receptions, `radar/evaluators.py` 1030-1034. -/
noncomputable def artifacts (h0 h1 : ℕ → Cube ℝ) : List ℕ → Except PyErr (List Artifact)
  | [] => .ok []
  | i :: rest => match artifact (h0 i) (h1 i) with
    | .error e => .error e
    | .ok a => match artifacts h0 h1 rest with
      | .error e => .error e
      | .ok l => .ok (a :: l)

/-- `ReceiverOperatingCharacteristic.FromScenario`, `radar/evaluators.py` 958-1035.  `replay0` and `replay1` are the outcomes
of `scenario.replay` for both campaigns: the number of drops available, and the cubes they hold by device and receiver.  The
artifacts are computed but not added to the result. -/
noncomputable def fromScenario (replaying : Bool) (devices : List (List ℕ × List ℕ)) (o : ℕ)
    (replay0 replay1 : Except PyErr (ℕ × (ℕ → ℕ → ℕ → Cube ℝ))) (num : ℤ) : Except PyErr Roc :=
  if !replaying then .error .value
  else match place o devices 0 none with
    | none => .error .value
    | some (d, k) => match replay0 with
      | .error e => .error e
      | .ok (n0, c0) => match replay1 with
        | .error e => .error e
        | .ok (n1, c1) =>
          let count := min (min num n0) (min num n1)
          match artifacts (fun i => c0 i d k) (fun i => c1 i d k) (List.range count.toNat) with
          | .error e => .error e
          | .ok _ => .ok (Roc.new [1] 101)

/-- `ReceiverOperatingCharacteristic.FromFile`, `radar/evaluators.py` 1037-1100; `replay0` and `replay1` are the outcomes of
`Scenario.Replay`. -/
noncomputable def fromFile (replay0 replay1 : Except PyErr (Scenario × ℕ)) (num : Option ℤ) (thresholds : ℕ) :
    Except PyErr Roc :=
  match replay0 with
  | .error e => .error e
  | .ok (s0, n0) => match replay1 with
    | .error e => .error e
    | .ok (s1, n1) =>
      let available : ℤ := min (n0 : ℤ) n1
      fromScenarios s0 s1 (match num with | none => available | some n => min n available) none none thresholds

/-! ### Specification -/

/-- Coordinates inside a grid. -/
def Inside (shape c : List ℕ) : Prop := List.Forall₂ (· < ·) c shape

/-- All values of both hypotheses. -/
def values (l : List Artifact) : Set ℝ := {x | ∃ a ∈ l, x = a.1 ∨ x = a.2}

/-- A list of pairs of probabilities is the receiver operating characteristic of artifacts at equidistant thresholds from
the lowest to the highest value. -/
def IsCurve (l : List Artifact) (curve : List (Option (ℝ × ℝ))) : Prop :=
  (l = [] ∧ ∀ p ∈ curve, p = none) ∨
  ∃ lo hi, IsLeast (values l) lo ∧ IsGreatest (values l) hi ∧
    ∀ t < curve.length, curve[t]? = some (some
      (((l.filter (fun a => decide (lo + t * ((hi - lo) / ((curve.length : ℝ) - 1)) ≤ a.2))).length : ℝ) / l.length,
       ((l.filter (fun a => decide (lo + t * ((hi - lo) / ((curve.length : ℝ) - 1)) ≤ a.1))).length : ℝ) / l.length))

/-! ### Lemmas -/

theorem foldl_min (l : List ℝ) (x : ℝ) :
    (l.foldl min x ∈ x :: l) ∧ ∀ y ∈ x :: l, l.foldl min x ≤ y := by
  induction l generalizing x with
  | nil => simp
  | cons a l ih =>
    obtain ⟨h1, h2⟩ := ih (min x a)
    simp only [List.foldl_cons]
    refine ⟨?_, ?_⟩
    · rcases List.mem_cons.1 h1 with h | h
      · rw [h]; rcases min_choice x a with e | e <;> rw [e] <;> simp
      · simp [h]
    · intro y hy
      have h0 := h2 (min x a) (by simp)
      rcases List.mem_cons.1 hy with h | h
      · rw [h]; exact h0.trans (min_le_left _ _)
      · rcases List.mem_cons.1 h with h | h
        · rw [h]; exact h0.trans (min_le_right _ _)
        · exact h2 y (by simp [h])

theorem foldl_max (l : List ℝ) (x : ℝ) :
    (l.foldl max x ∈ x :: l) ∧ ∀ y ∈ x :: l, y ≤ l.foldl max x := by
  induction l generalizing x with
  | nil => simp
  | cons a l ih =>
    obtain ⟨h1, h2⟩ := ih (max x a)
    simp only [List.foldl_cons]
    refine ⟨?_, ?_⟩
    · rcases List.mem_cons.1 h1 with h | h
      · rw [h]; rcases max_choice x a with e | e <;> rw [e] <;> simp
      · simp [h]
    · intro y hy
      have h0 := h2 (max x a) (by simp)
      rcases List.mem_cons.1 hy with h | h
      · rw [h]; exact (le_max_left _ _).trans h0
      · rcases List.mem_cons.1 h with h | h
        · rw [h]; exact (le_max_right _ _).trans h0
        · exact h2 y (by simp [h])

theorem lowest_spec {l : List ℝ} (h : l ≠ []) : IsLeast {x | x ∈ l} (lowest l) := by
  cases l with
  | nil => exact absurd rfl h
  | cons x xs => exact ⟨(foldl_min xs x).1, fun y hy => (foldl_min xs x).2 y hy⟩

theorem highest_spec {l : List ℝ} (h : l ≠ []) : IsGreatest {x | x ∈ l} (highest l) := by
  cases l with
  | nil => exact absurd rfl h
  | cons x xs => exact ⟨(foldl_max xs x).1, fun y hy => (foldl_max xs x).2 y hy⟩

theorem locate_inside {shape c : List ℕ} (h : Inside shape c) : locate shape c = .ok () := by
  unfold Inside at h
  induction h with
  | nil => rfl
  | cons h _ ih => simp [locate, ih, Nat.not_le.2 h]

theorem data_eq (l : List Artifact) : {x | x ∈ l.flatMap (fun a => [a.1, a.2])} = values l := by
  ext x; simp [values]

theorem fraction_eq (l : List Artifact) (f : Artifact → ℝ) (θ : ℝ) :
    fraction (l.map f) θ = ((l.filter (fun a => decide (θ ≤ f a))).length : ℝ) / l.length := by
  unfold fraction
  rw [List.countP_map, List.countP_eq_length_filter, List.length_map]
  rfl

theorem linspace_eq (lo hi : ℝ) {n t : ℕ} (ht : t < n) :
    linspace lo hi n t = lo + t * ((hi - lo) / ((n : ℝ) - 1)) := by
  unfold linspace
  split
  · have : t = 0 := by omega
    simp [this]
  · rfl

theorem curve_length (r : Roc) (c : List ℕ) : (r.curve c).length = r.thresholds := by simp [Roc.curve]

theorem curve_spec (r : Roc) (c : List ℕ) : IsCurve (r.store c) (r.curve c) := by
  by_cases h : r.store c = []
  · left
    refine ⟨h, ?_⟩
    intro p hp
    simp only [Roc.curve, h, List.flatMap_nil, if_true, List.mem_map] at hp
    obtain ⟨_, _, hp⟩ := hp
    exact hp.symm
  · right
    have hd : (r.store c).flatMap (fun a => [a.1, a.2]) ≠ [] := by
      cases hs : r.store c with
      | nil => exact absurd hs h
      | cons a l => simp
    refine ⟨lowest ((r.store c).flatMap (fun a => [a.1, a.2])), highest ((r.store c).flatMap (fun a => [a.1, a.2])),
      ?_, ?_, ?_⟩
    · rw [← data_eq]; exact lowest_spec hd
    · rw [← data_eq]; exact highest_spec hd
    · intro t ht
      rw [curve_length] at ht ⊢
      unfold Roc.curve
      dsimp only
      rw [List.getElem?_map, List.getElem?_range ht, Option.map_some, if_neg hd, linspace_eq _ _ ht, fraction_eq, fraction_eq]

theorem add_inside (r : Roc) {c : List ℕ} (a : Artifact) (h : Inside r.shape c) :
    r.add c a = .ok { r with store := fun d => if d = c then r.store d ++ [a] else r.store d } := by
  unfold Roc.add
  rw [locate_inside h]

theorem collect_spec (hist : List (List ℕ × Artifact)) (r : Roc) (h : ∀ x ∈ hist, Inside r.shape x.1) :
    ∃ s, r.collect hist = .ok s ∧ s.thresholds = r.thresholds ∧ s.shape = r.shape ∧
      ∀ c, s.store c = r.store c ++ (hist.filter (fun x => decide (x.1 = c))).map Prod.snd := by
  induction hist generalizing r with
  | nil => exact ⟨r, rfl, rfl, rfl, by simp⟩
  | cons x rest ih =>
    obtain ⟨c0, a⟩ := x
    obtain ⟨s, h1, h2, h3, h4⟩ := ih { r with store := fun d => if d = c0 then r.store d ++ [a] else r.store d }
      (fun y hy => h y (List.mem_cons_of_mem _ hy))
    refine ⟨s, ?_, h2, h3, ?_⟩
    · simp only [Roc.collect]
      rw [add_inside r a (h _ List.mem_cons_self)]
      exact h1
    · intro c
      rw [h4 c]
      by_cases hc : c = c0
      · subst hc; simp
      · have hc' : ¬ c0 = c := fun e => hc e.symm
        simp [hc, hc']

/-! ### Theorems -/

/-- Whatever the history of artifacts, the array of a result has, per coordinate, the receiver operating characteristic of
the artifacts added at this coordinate, sampled at equidistant thresholds from their lowest to their highest value. -/
theorem C97_curve (shape : List ℕ) (T : ℕ) (hist : List (List ℕ × Artifact)) (h : ∀ x ∈ hist, Inside shape x.1) :
    ∃ r, (Roc.new shape T).collect hist = .ok r ∧
      ∀ c, (r.curve c).length = T ∧ IsCurve ((hist.filter (fun x => decide (x.1 = c))).map Prod.snd) (r.curve c) := by
  obtain ⟨r, h1, h2, _, h4⟩ := collect_spec hist (Roc.new shape T) h
  refine ⟨r, h1, ?_⟩
  intro c
  refine ⟨by rw [curve_length, h2]; rfl, ?_⟩
  have := curve_spec r c
  rw [h4 c] at this
  simpa [Roc.new] using this

example : ∃ r, (Roc.new [2] 3).collect [([0], (0, 1)), ([1], (5, 5)), ([0], (1, 2))] = .ok r ∧
    (r.curve [0])[1]? = some (some (1, 1 / 2)) := by
  obtain ⟨r, h, hc⟩ := C97_curve [2] 3 [([0], (0, 1)), ([1], (5, 5)), ([0], (1, 2))] (by
    intro x hx; simp at hx; rcases hx with rfl | rfl | rfl <;> simp [Inside])
  refine ⟨r, h, ?_⟩
  obtain ⟨hl, hc⟩ := hc [0]
  rcases hc with ⟨h0, _⟩ | ⟨lo, hi, h0, h1, h2⟩
  · simp at h0
  · have e0 : lo = 0 := h0.unique (by
      constructor <;> simp [values, lowerBounds]
      rintro a ((rfl | rfl) | rfl | rfl) <;> norm_num)
    have e1 : hi = 2 := h1.unique (by
      constructor <;> simp [values, upperBounds]
      rintro a ((rfl | rfl) | rfl | rfl) <;> norm_num)
    have := h2 1 (by omega)
    rw [hl, e0, e1] at this
    rw [this]
    norm_num [List.filter]

/-- Too few, too many or too large coordinates are refused. -/
theorem C97_outside (r : Roc) (c : List ℕ) (a : Artifact) (h : ¬ Inside r.shape c) :
    r.add c a = .error .index ∨ r.add c a = .error .attribute := by
  have key : ∀ (shape c : List ℕ), ¬ Inside shape c → locate shape c = .error .index ∨ locate shape c = .error .attribute := by
    intro shape
    induction shape with
    | nil =>
      intro c hc
      cases c with
      | nil => exact absurd List.Forall₂.nil hc
      | cons _ _ => left; rfl
    | cons n shape ih =>
      intro c hc
      cases c with
      | nil => right; rfl
      | cons x c =>
        by_cases h1 : Inside shape c
        · have hx : n ≤ x := by
            by_contra hx
            exact hc (List.Forall₂.cons (by omega) h1)
          left
          simp [locate, locate_inside h1, hx]
        · rcases ih c h1 with h2 | h2
          · left; simp [locate, h2]
          · by_cases hx : n ≤ x
            · left; simp [locate, h2, hx]
            · right; simp [locate, h2, hx]
  unfold Roc.add
  rcases key _ _ h with e | e <;> rw [e] <;> simp

example : (Roc.new [2] 3).add [2] (0, 1) = .error .index := rfl

theorem filter_antitone (l : List Artifact) (f : Artifact → ℝ) {x y : ℝ} (h : x ≤ y) :
    (l.filter (fun a => decide (y ≤ f a))).length ≤ (l.filter (fun a => decide (x ≤ f a))).length := by
  rw [← List.countP_eq_length_filter, ← List.countP_eq_length_filter]
  exact List.countP_mono_left (fun a _ ha => by
    simp only [decide_eq_true_eq] at ha ⊢
    exact h.trans ha)

theorem ratio_mono {n m k : ℕ} (h : n ≤ m) : (n : ℝ) / k ≤ (m : ℝ) / k := by
  apply div_le_div_of_nonneg_right (by exact_mod_cast h) (by positivity)

theorem step_nonneg {lo hi : ℝ} (h : lo ≤ hi) {n t : ℕ} (ht : t < n) : 0 ≤ (hi - lo) / ((n : ℝ) - 1) := by
  apply div_nonneg (by linarith)
  have : (1 : ℝ) ≤ n := by exact_mod_cast (by omega : 1 ≤ n)
  linarith

/-- Every characteristic starts at certain detection and certain false alarm, and neither probability ever grows with the
threshold; all of them lie between zero and one, and at the last of several thresholds some value is still detected. -/
theorem C97_monotone {l : List Artifact} {curve : List (Option (ℝ × ℝ))} (h : IsCurve l curve) (hl : l ≠ []) :
    (0 < curve.length → curve[0]? = some (some (1, 1))) ∧
    (∀ (t : ℕ) p, curve[t]? = some p → ∃ q : ℝ × ℝ, p = some q ∧ 0 ≤ q.1 ∧ q.1 ≤ 1 ∧ 0 ≤ q.2 ∧ q.2 ≤ 1) ∧
    (∀ (t u : ℕ) (p q : ℝ × ℝ), t ≤ u → curve[t]? = some (some p) → curve[u]? = some (some q) → q.1 ≤ p.1 ∧ q.2 ≤ p.2) ∧
    (2 ≤ curve.length → ∃ q : ℝ × ℝ, curve[curve.length - 1]? = some (some q) ∧ 0 < q.1 + q.2) := by
  rcases h with ⟨h, _⟩ | ⟨lo, hi, hlo, hhi, h⟩
  · exact absurd h hl
  have hlen : 0 < l.length := List.length_pos_iff.2 hl
  have hlen' : (0 : ℝ) < l.length := by exact_mod_cast hlen
  have hle : lo ≤ hi := hlo.2 hhi.1
  refine ⟨?_, ?_, ?_, ?_⟩
  · intro hc
    rw [h 0 hc]
    have e1 : l.filter (fun a => decide (lo + ((0 : ℕ) : ℝ) * ((hi - lo) / ((curve.length : ℝ) - 1)) ≤ a.2)) = l := by
      rw [List.filter_eq_self]
      intro a ha
      simpa using hlo.2 ⟨a, ha, Or.inr rfl⟩
    have e2 : l.filter (fun a => decide (lo + ((0 : ℕ) : ℝ) * ((hi - lo) / ((curve.length : ℝ) - 1)) ≤ a.1)) = l := by
      rw [List.filter_eq_self]
      intro a ha
      simpa using hlo.2 ⟨a, ha, Or.inl rfl⟩
    rw [e1, e2, div_self hlen'.ne']
  · intro t p hp
    have ht : t < curve.length := (List.getElem?_eq_some_iff.1 hp).1
    rw [h t ht] at hp
    injection hp with hp
    refine ⟨_, hp.symm, by positivity, ?_, by positivity, ?_⟩
    · rw [div_le_one hlen']; exact_mod_cast List.length_filter_le _ _
    · rw [div_le_one hlen']; exact_mod_cast List.length_filter_le _ _
  · intro t u p q htu hp hq
    have ht : t < curve.length := (List.getElem?_eq_some_iff.1 hp).1
    have hu : u < curve.length := (List.getElem?_eq_some_iff.1 hq).1
    rw [h t ht] at hp
    rw [h u hu] at hq
    injection hp with hp; injection hp with hp
    injection hq with hq; injection hq with hq
    rw [← hp, ← hq]
    have hs := step_nonneg hle ht
    have htu' : (t : ℝ) ≤ u := by exact_mod_cast htu
    have hθ : lo + t * ((hi - lo) / ((curve.length : ℝ) - 1)) ≤ lo + u * ((hi - lo) / ((curve.length : ℝ) - 1)) := by
      have := mul_le_mul_of_nonneg_right htu' hs
      linarith
    exact ⟨ratio_mono (filter_antitone l Prod.snd hθ), ratio_mono (filter_antitone l Prod.fst hθ)⟩
  · intro h2
    refine ⟨_, h (curve.length - 1) (by omega), ?_⟩
    have hcast : ((curve.length - 1 : ℕ) : ℝ) = (curve.length : ℝ) - 1 := by
      rw [Nat.cast_sub (by omega)]; simp
    have hne : (curve.length : ℝ) - 1 ≠ 0 := by
      have : (2 : ℝ) ≤ curve.length := by exact_mod_cast h2
      linarith
    have hθ : lo + ((curve.length - 1 : ℕ) : ℝ) * ((hi - lo) / ((curve.length : ℝ) - 1)) = hi := by
      rw [hcast, mul_div_cancel₀ _ hne]; ring
    dsimp only
    rw [hθ]
    obtain ⟨a, ha, hx | hx⟩ := hhi.1
    · have : 0 < (l.filter (fun a => decide (hi ≤ a.1))).length :=
        List.length_pos_of_mem (List.mem_filter.2 ⟨ha, by simp [hx]⟩)
      have : (0 : ℝ) < ((l.filter (fun a => decide (hi ≤ a.1))).length : ℝ) := by exact_mod_cast this
      positivity
    · have : 0 < (l.filter (fun a => decide (hi ≤ a.2))).length :=
        List.length_pos_of_mem (List.mem_filter.2 ⟨ha, by simp [hx]⟩)
      have : (0 : ℝ) < ((l.filter (fun a => decide (hi ≤ a.2))).length : ℝ) := by exact_mod_cast this
      positivity

example : ∃ curve, IsCurve [((0 : ℝ), (1 : ℝ))] curve ∧ 2 ≤ curve.length :=
  ⟨_, curve_spec ⟨[1], fun _ => [(0, 1)], 2⟩ [0], by simp [curve_length]⟩

/-- A detector separating both hypotheses is recognised: if all values of the alternative exceed those of the null
hypothesis by the distance of two thresholds or more, some threshold detects everything without a false alarm. -/
theorem C97_separated {l : List Artifact} {curve : List (Option (ℝ × ℝ))} (h : IsCurve l curve) (hl : l ≠ [])
    (hT : 2 ≤ curve.length) {a b : ℝ} (hab : a < b) (h0 : ∀ x ∈ l, x.1 ≤ a) (h1 : ∀ x ∈ l, b ≤ x.2)
    (hb : ∃ x ∈ l, x.2 = b)
    (hgap : ∀ x ∈ values l, ∀ y ∈ values l, y - x ≤ (b - a) * ((curve.length : ℝ) - 1)) :
    some (some (1, 0)) ∈ (List.range curve.length).map (fun t => curve[t]?) := by
  rcases h with ⟨h, _⟩ | ⟨lo, hi, hlo, hhi, h⟩
  · exact absurd h hl
  have hlen : 0 < l.length := List.length_pos_iff.2 hl
  have hlen' : (0 : ℝ) < l.length := by exact_mod_cast hlen
  have hT' : (2 : ℝ) ≤ curve.length := by exact_mod_cast hT
  have hpos : 0 < (curve.length : ℝ) - 1 := by linarith
  obtain ⟨x, hx, hxb⟩ := hb
  have hbhi : b ≤ hi := hhi.2 ⟨x, hx, Or.inr hxb.symm⟩
  have hlob : lo < b := lt_of_le_of_lt (hlo.2 ⟨x, hx, Or.inl rfl⟩) (lt_of_le_of_lt (h0 x hx) hab)
  set step := (hi - lo) / ((curve.length : ℝ) - 1) with hstep
  have hsp : 0 < step := div_pos (by linarith) hpos
  have hsg : step ≤ b - a := by
    rw [hstep, div_le_iff₀ hpos]
    exact hgap lo hlo.1 hi hhi.1
  set t := ⌊(b - lo) / step⌋₊ with ht
  have hq : 0 ≤ (b - lo) / step := div_nonneg (by linarith) hsp.le
  have ht1 : (t : ℝ) * step ≤ b - lo := by
    rw [← le_div_iff₀ hsp]; exact Nat.floor_le hq
  have ht2 : b - lo < ((t : ℝ) + 1) * step := by
    rw [← div_lt_iff₀ hsp]; exact Nat.lt_floor_add_one _
  have hstepT : step * ((curve.length : ℝ) - 1) = hi - lo := by
    rw [hstep]; field_simp
  have htl : t < curve.length := by
    by_contra hc
    have hc' : (curve.length : ℝ) ≤ t := by exact_mod_cast Nat.le_of_not_lt hc
    have := mul_le_mul_of_nonneg_right hc' hsp.le
    nlinarith
  rw [List.mem_map]
  refine ⟨t, List.mem_range.2 htl, ?_⟩
  rw [h t htl]
  have e1 : l.filter (fun y => decide (lo + t * step ≤ y.2)) = l := by
    rw [List.filter_eq_self]
    intro y hy
    have := h1 y hy
    simp only [decide_eq_true_eq]
    linarith
  have e2 : l.filter (fun y => decide (lo + t * step ≤ y.1)) = [] := by
    rw [List.filter_eq_nil_iff]
    intro y hy
    have := h0 y hy
    simp only [decide_eq_true_eq, not_le]
    linarith
  rw [e1, e2, div_self hlen'.ne']
  simp

example : some (some (1, 0)) ∈ (List.range 3).map
    (fun t => ((⟨[1], fun _ => [(0, 4), (1, 3)], 3⟩ : Roc).curve [0])[t]?) := by
  have h := curve_spec ⟨[1], fun _ => [(0, 4), (1, 3)], 3⟩ [0]
  have := C97_separated h (by simp) (by simp [curve_length]) (a := 1) (b := 3) (by norm_num)
    (by simp) (by simp; norm_num) ⟨(1, 3), by simp⟩ (by
      rw [curve_length]
      rintro x ⟨p, hp, hx⟩ y ⟨q, hq, hy⟩
      simp at hp hq
      rcases hp with rfl | rfl <;> rcases hq with rfl | rfl <;> rcases hx with rfl | rfl <;>
        rcases hy with rfl | rfl <;> norm_num)
  rwa [curve_length] at this

/-- The order in which artifacts arrive does not matter. -/
theorem C97_order (shape : List ℕ) (T : ℕ) {hist hist' : List (List ℕ × Artifact)} (hp : hist.Perm hist')
    (h : ∀ x ∈ hist, Inside shape x.1) :
    ∃ r s, (Roc.new shape T).collect hist = .ok r ∧ (Roc.new shape T).collect hist' = .ok s ∧ ∀ c, r.curve c = s.curve c := by
  obtain ⟨r, hr, hrc⟩ := C97_curve shape T hist h
  obtain ⟨s, hs, hsc⟩ := C97_curve shape T hist' (fun x hx => h x (hp.mem_iff.2 hx))
  refine ⟨r, s, hr, hs, ?_⟩
  intro c
  obtain ⟨hl, hc⟩ := hrc c
  obtain ⟨hl', hc'⟩ := hsc c
  have hperm : ((hist.filter (fun x => decide (x.1 = c))).map Prod.snd).Perm
      ((hist'.filter (fun x => decide (x.1 = c))).map Prod.snd) := (hp.filter _).map _
  generalize (hist.filter (fun x => decide (x.1 = c))).map Prod.snd = l at *
  generalize (hist'.filter (fun x => decide (x.1 = c))).map Prod.snd = l' at *
  have hv : values l = values l' := by
    ext x; simp only [values, Set.mem_ofPred_eq, hperm.mem_iff]
  apply List.ext_getElem? 
  intro t
  by_cases ht : t < T
  · rcases hc with ⟨e, hc⟩ | ⟨lo, hi, h1, h2, hc⟩
    · rcases hc' with ⟨e', hc'⟩ | ⟨lo', hi', h1', _⟩
      · rw [List.getElem?_eq_getElem (by omega), List.getElem?_eq_getElem (by omega),
          hc _ (List.getElem_mem _), hc' _ (List.getElem_mem _)]
      · obtain ⟨a, ha, _⟩ := h1'.1
        rw [← hperm.mem_iff, e] at ha
        simp at ha
    · rcases hc' with ⟨e', hc'⟩ | ⟨lo', hi', h1', h2', hc'⟩
      · obtain ⟨a, ha, _⟩ := h1.1
        rw [hperm.mem_iff, e'] at ha
        simp at ha
      · rw [hv] at h1 h2
        rw [hc t (by omega), hc' t (by omega), h1.unique h1', h2.unique h2', hl, hl', hperm.length_eq,
          (hperm.filter _).length_eq, (hperm.filter _).length_eq]
  · rw [List.getElem?_eq_none (by omega), List.getElem?_eq_none (by omega)]

example : [(([0] : List ℕ), ((0 : ℝ), (1 : ℝ))), ([1], (2, 3))].Perm [([1], (2, 3)), ([0], (0, 1))] := List.Perm.swap _ _ _

/-- The number of thresholds configured at an evaluator has no effect: its results always have 101. -/
theorem C97_thresholds_fails (configured : ℕ) (shape c : List ℕ) : ((initializeResult configured shape).curve c).length = 101 := by
  rw [curve_length]; rfl

/-- The plot of a result is not its characteristic: whatever the data, the line drawn joins two points of ordinate one,
at the detection and at the false alarm probability of the second threshold; with fewer than two thresholds drawing raises
an `IndexError`. -/
theorem C97_plot_fails (r : Roc) (c : List ℕ) (hd : r.store c ≠ []) :
    (r.thresholds < 2 → r.plot c = .error .index) ∧
    (2 ≤ r.thresholds → ∃ q : ℝ × ℝ, (r.curve c)[1]? = some (some q) ∧ r.plot c = .ok [(q.1, 1), (q.2, 1)]) := by
  have hl := curve_length r c
  obtain ⟨m0, m1, _, _⟩ := C97_monotone (curve_spec r c) hd
  constructor
  · intro h
    unfold Roc.plot
    rw [List.getElem?_eq_none (by omega : (r.curve c).length ≤ 1)]
  · intro h
    have e1 : (r.curve c)[1]? = some ((r.curve c)[1]'(by omega)) := List.getElem?_eq_getElem (by omega)
    obtain ⟨q, hq, _⟩ := m1 1 _ e1
    refine ⟨q, by rw [e1, hq], ?_⟩
    unfold Roc.plot
    rw [m0 (by omega), e1, hq]

/-- A detector that separates both hypotheses, drawn as if it raised false alarms for everything it detects. -/
example : (⟨[1], fun _ => [(0, 1)], 2⟩ : Roc).plot [0] = .ok [(1, 1), (0, 1)] ∧
    (⟨[1], fun _ => [(0, 1)], 2⟩ : Roc).curve [0] = [some (1, 1), some (1, 0)] := by
  have e : (⟨[1], fun _ => [(0, 1)], 2⟩ : Roc).curve [0] = [some (1, 1), some (1, 0)] := by
    simp [Roc.curve, List.range_succ, lowest, highest, linspace, fraction, List.countP_cons]
    norm_num
  refine ⟨?_, e⟩
  unfold Roc.plot
  rw [e]
  rfl

/-! ### Scenarios -/

theorem place_none (o : ℕ) (devices : List (List ℕ × List ℕ)) (first : ℕ) (found : Option (ℕ × ℕ))
    (h : ∀ d ∈ devices, o ∉ d.2) : place o devices first found = found := by
  induction devices generalizing first found with
  | nil => rfl
  | cons d rest ih =>
    unfold place
    rw [if_neg (h d List.mem_cons_self)]
    exact ih _ _ (fun x hx => h x (List.mem_cons_of_mem _ hx))

theorem place_spec (o : ℕ) (pre : List (List ℕ × List ℕ)) (d : List ℕ × List ℕ) (post : List (List ℕ × List ℕ)) (first : ℕ)
    (found : Option (ℕ × ℕ)) (hd : o ∈ d.2) (h : ∀ x ∈ post, o ∉ x.2) :
    place o (pre ++ d :: post) first found = some (first + pre.length, d.2.idxOf o) := by
  induction pre generalizing first found with
  | nil =>
    simp only [List.nil_append, place, if_pos hd]
    rw [place_none _ _ _ _ h]
    simp
  | cons x pre ih =>
    simp only [List.cons_append, place]
    rw [ih]
    simp only [List.length_cons]
    congr 2
    omega

/-- The highest entry of a cube. -/
def IsPeak (c : Cube ℝ) (x : ℝ) : Prop :=
  (∃ i j k, i < c.na ∧ j < c.nb ∧ k < c.nc ∧ c.data (i, j, k) = x) ∧
  ∀ i j k, i < c.na → j < c.nb → k < c.nc → c.data (i, j, k) ≤ x

theorem highest_peak {c : Cube ℝ} (h : 0 < c.na ∧ 0 < c.nb ∧ 0 < c.nc) : c.values ≠ [] ∧ IsPeak c (highest c.values) := by
  have hne : c.values ≠ [] := by
    have : (0, 0, 0) ∈ c.idxs := (mem_idxs c 0 0 0).2 h
    unfold Cube.values
    intro e
    rw [List.map_eq_nil_iff] at e
    rw [e] at this
    simp at this
  refine ⟨hne, ?_⟩
  obtain ⟨h1, h2⟩ := highest_spec hne
  constructor
  · obtain ⟨⟨i, j, k⟩, hp, e⟩ := List.mem_map.1 h1
    obtain ⟨hi, hj, hk⟩ := (mem_idxs c i j k).1 hp
    exact ⟨i, j, k, hi, hj, hk, e⟩
  · intro i j k hi hj hk
    exact h2 (List.mem_map.2 ⟨(i, j, k), (mem_idxs c i j k).2 ⟨hi, hj, hk⟩, rfl⟩)

theorem peak_unique {c : Cube ℝ} {x y : ℝ} (hx : IsPeak c x) (hy : IsPeak c y) : x = y := by
  obtain ⟨⟨i, j, k, hi, hj, hk, e⟩, hx⟩ := hx
  obtain ⟨⟨i', j', k', hi', hj', hk', e'⟩, hy⟩ := hy
  apply le_antisymm
  · rw [← e]; exact hy i j k hi hj hk
  · rw [← e']; exact hx i' j' k' hi' hj' hk'

theorem drops_spec (h0 h1 : ℕ → Cube ℝ) (l : List ℕ) (r : Roc) (hr : r.shape = [1])
    (hh : ∀ i ∈ l, (0 < (h0 i).na ∧ 0 < (h0 i).nb ∧ 0 < (h0 i).nc) ∧ (0 < (h1 i).na ∧ 0 < (h1 i).nb ∧ 0 < (h1 i).nc)) :
    ∃ s, drops r h0 h1 l = .ok s ∧ s.thresholds = r.thresholds ∧
      s.store [0] = r.store [0] ++ l.map (fun i => (highest (h0 i).values, highest (h1 i).values)) := by
  induction l generalizing r with
  | nil => exact ⟨r, rfl, rfl, by simp⟩
  | cons i l ih =>
    obtain ⟨ha, hb⟩ := hh i List.mem_cons_self
    have ea : artifact (h0 i) (h1 i) = .ok (highest (h0 i).values, highest (h1 i).values) := by
      unfold artifact
      rw [if_neg]
      push Not
      exact ⟨(highest_peak ha).1, (highest_peak hb).1⟩
    have hin : Inside r.shape [0] := by rw [hr]; simp [Inside]
    generalize hp : (highest (h0 i).values, highest (h1 i).values) = p at ea
    obtain ⟨s, e1, e2, e3⟩ := ih { r with store := fun d => if d = [0] then r.store d ++ [p] else r.store d } hr
      (fun j hj => hh j (List.mem_cons_of_mem _ hj))
    refine ⟨s, ?_, e2, ?_⟩
    · simp only [drops, ea]
      rw [add_inside r _ hin]
      exact e1
    · rw [e3, List.map_cons, hp]; simp

/-- An operator received by one device of a scenario: its position, and cubes that are not empty. -/
def Received (s : Scenario) (o d k : ℕ) : Prop :=
  o ∈ s.order ∧
  ∃ pre t rx post, s.devices = pre ++ (t, rx) :: post ∧ pre.length = d ∧ o ∈ rx ∧ rx.idxOf o = k ∧
    (∀ x ∈ post, o ∉ x.2) ∧ ∀ i, 0 < (s.cube i d k).na ∧ 0 < (s.cube i d k).nb ∧ 0 < (s.cube i d k).nc

/-- Two scenarios, evaluated at given operators: the result has the characteristic of the highest entries of both
operators' cubes in as many drops as asked for, with as many thresholds as asked for. -/
theorem C97_scenarios_partial (s0 s1 : Scenario) {n : ℕ} (hn : 1 ≤ n) (o0 o1 T : ℕ) {d0 k0 d1 k1 : ℕ}
    (h0 : Received s0 o0 d0 k0) (h1 : Received s1 o1 d1 k1) :
    ∃ (r : Roc) (x y : ℕ → ℝ), fromScenarios s0 s1 n (some o0) (some o1) T = .ok r ∧ (r.curve [0]).length = T ∧
      (∀ i, IsPeak (s0.cube i d0 k0) (x i)) ∧ (∀ i, IsPeak (s1.cube i d1 k1) (y i)) ∧
      IsCurve ((List.range n).map (fun i => (x i, y i))) (r.curve [0]) := by
  obtain ⟨m0, pre0, t0, rx0, post0, e0, l0, r0, i0, z0, c0⟩ := h0
  obtain ⟨m1, pre1, t1, rx1, post1, e1, l1, r1, i1, z1, c1⟩ := h1
  obtain ⟨r, hr, ht, hs⟩ := drops_spec (fun i => s0.cube i d0 k0) (fun i => s1.cube i d1 k1) (List.range n)
    (Roc.new [1] T) rfl (fun i _ => ⟨c0 i, c1 i⟩)
  refine ⟨r, fun i => highest (s0.cube i d0 k0).values, fun i => highest (s1.cube i d1 k1).values, ?_, ?_, ?_, ?_, ?_⟩
  · unfold fromScenarios pick
    rw [if_neg (by omega)]
    simp only [if_pos m0, if_pos m1]
    rw [e0, e1, place_spec o0 pre0 (t0, rx0) post0 0 none r0 z0, place_spec o1 pre1 (t1, rx1) post1 0 none r1 z1]
    simp only [Nat.zero_add, l0, l1, i0, i1, Int.toNat_natCast]
    exact hr
  · rw [curve_length, ht]; rfl
  · exact fun i => (highest_peak (c0 i)).2
  · exact fun i => (highest_peak (c1 i)).2
  · have := curve_spec r [0]
    rw [hs] at this
    simpa [Roc.new] using this

/-- A cube with a single entry. -/
def single (x : ℝ) : Cube ℝ := ⟨1, 1, 1, fun _ => x, [[0, 0]], [0], [0], 1⟩

/-- One device with a radar of identity 7, visible with value `x`. -/
def lone (x : ℝ) : Scenario := ⟨[([], []), ([7], [3, 7])], fun o => o == 7, [3, 7], fun _ _ _ => single x⟩

example : (lone 1).Lawful ∧ Received (lone 1) 7 1 1 :=
  ⟨⟨by simp [lone], by intro o; simp [lone]; tauto⟩,
   by simp [lone], [([], [])], [7], [3, 7], [], rfl, rfl, by simp, rfl, by simp, fun i => by simp [lone, single]⟩

/-- Fewer than one drop, foreign operators, operators of no receiver and scenarios without radars are refused. -/
theorem C97_refused (s0 s1 : Scenario) (n : ℤ) (g0 g1 : Option ℕ) (T : ℕ)
    (h : n < 1 ∨ (∃ o, g0 = some o ∧ o ∉ s0.order) ∨ (∃ o, g1 = some o ∧ o ∉ s1.order) ∨
      (∃ o, g0 = some o ∧ ∀ d ∈ s0.devices, o ∉ d.2) ∨ (∃ o, g1 = some o ∧ ∀ d ∈ s1.devices, o ∉ d.2) ∨
      (g0 = none ∧ ∀ o ∈ s0.order, s0.radar o = false) ∨ (g1 = none ∧ ∀ o ∈ s1.order, s1.radar o = false)) :
    fromScenarios s0 s1 n g0 g1 T = .error .value := by
  have hpick : ∀ s g e, pick s g = .error e → e = .value := by
    intro s g e he
    unfold pick at he
    repeat' split at he
    all_goals first | cases he; rfl | cases he
  have hnone : ∀ s : Scenario, (∀ o ∈ s.order, s.radar o = false) → pick s none = .error .value := by
    intro s hs
    unfold pick
    dsimp only
    split
    · rfl
    · rw [List.find?_eq_none.2 (by intro o ho; simp [hs o ho])]
  unfold fromScenarios
  split
  · rfl
  · rename_i hn
    cases e0 : pick s0 g0 with
    | error e => rw [hpick _ _ _ e0]
    | ok o0 =>
      cases e1 : pick s1 g1 with
      | error e => rw [hpick _ _ _ e1]
      | ok o1 =>
        dsimp only
        have hp0 : ∀ o, g0 = some o → o0 = o := by
          intro o ho
          rw [ho] at e0
          unfold pick at e0
          dsimp only at e0
          split at e0 <;> cases e0
          rfl
        have hp1 : ∀ o, g1 = some o → o1 = o := by
          intro o ho
          rw [ho] at e1
          unfold pick at e1
          dsimp only at e1
          split at e1 <;> cases e1
          rfl
        rcases h with h | ⟨o, hg, ho⟩ | ⟨o, hg, ho⟩ | ⟨o, hg, ho⟩ | ⟨o, hg, ho⟩ | ⟨hg, ho⟩ | ⟨hg, ho⟩
        · exact absurd h hn
        · rw [hg] at e0; unfold pick at e0; simp [ho] at e0
        · rw [hg] at e1; unfold pick at e1; simp [ho] at e1
        · rw [hp0 o hg, place_none _ _ _ _ ho]
        · rw [hp1 o hg, place_none _ _ _ _ ho]
          split
          · rename_i h2; cases h2
          · rfl
        · rw [hg, hnone _ ho] at e0; cases e0
        · rw [hg, hnone _ ho] at e1; cases e1

example : fromScenarios (lone 0) (lone 1) 0 none none 5 = .error .value := C97_refused _ _ _ _ _ _ (Or.inl (by norm_num))

/-- Two radars at one device: the first one sees 0, the second one 2. -/
def pair (order : List ℕ) : Scenario :=
  ⟨[([], [0, 1])], fun _ => true, order, fun _ _ k => single (if k = 0 then 0 else 2)⟩

/-- Without given operators, the radar evaluated in a scenario with several radars is not the first one but depends on the
order in which a set happens to be iterated, and so does the result. -/
theorem C97_first_fails : (pair [0, 1]).Lawful ∧ (pair [1, 0]).Lawful ∧
    ∃ r s, fromScenarios (pair [0, 1]) (lone 1) 1 none none 2 = .ok r ∧
      fromScenarios (pair [1, 0]) (lone 1) 1 none none 2 = .ok s ∧
      r.curve [0] = [some (1, 1), some (1, 0)] ∧ s.curve [0] = [some (1, 1), some (0, 1)] := by
  refine ⟨⟨by simp [pair], by intro o; simp [pair]⟩, ⟨by simp [pair], by intro o; simp [pair]; tauto⟩, ?_⟩
  refine ⟨⟨[1], fun c => if c = [0] then [(0, 1)] else [], 2⟩, ⟨[1], fun c => if c = [0] then [(2, 1)] else [], 2⟩, ?_, ?_, ?_, ?_⟩
  · simp [fromScenarios, pick, pair, lone, Scenario.numOperators, place, drops, artifact, single, Cube.values, Cube.idxs,
      highest, Roc.add, Roc.new, locate]
  · simp [fromScenarios, pick, pair, lone, Scenario.numOperators, place, drops, artifact, single, Cube.values, Cube.idxs,
      highest, Roc.add, Roc.new, locate]
  · simp [Roc.curve, List.range_succ, lowest, highest, linspace, fraction, List.countP_cons]
    try norm_num
  · simp [Roc.curve, List.range_succ, lowest, highest, linspace, fraction, List.countP_cons]
    try norm_num

/-- Extracting the characteristic of a replayed scenario never yields any data. -/
theorem C97_replay_fails (replaying : Bool) (devices : List (List ℕ × List ℕ)) (o : ℕ)
    (replay0 replay1 : Except PyErr (ℕ × (ℕ → ℕ → ℕ → Cube ℝ))) (num : ℤ) (r : Roc)
    (h : fromScenario replaying devices o replay0 replay1 num = .ok r) : ∀ c, ∀ p ∈ r.curve c, p = none := by
  have hr : r = Roc.new [1] 101 := by
    unfold fromScenario at h
    repeat' split at h
    all_goals first | cases h | skip
    dsimp only at h
    split at h
    · cases h
    · injection h with h; exact h.symm
  intro c p hp
  rw [hr] at hp
  simp only [Roc.curve, Roc.new, List.flatMap_nil, if_true, List.mem_map] at hp
  obtain ⟨_, _, hp⟩ := hp
  exact hp.symm

example : ∃ r, fromScenario true [([], [0])] 0 (.ok (5, fun _ _ _ => single 0)) (.ok (5, fun _ _ _ => single 1)) 5 = .ok r :=
  ⟨Roc.new [1] 101, by
    simp [fromScenario, place, artifacts, List.range_succ, artifact, single, Cube.values, Cube.idxs]⟩

/-- A file with the drops of two campaigns, in which a single radar receives: as many pairs of drops are evaluated as both
campaigns hold, or fewer if fewer are asked for. -/
theorem C97_file_partial (s0 s1 : Scenario) (n0 n1 : ℕ) (limit : Option ℕ) (o0 o1 T : ℕ) {d0 k0 d1 k1 : ℕ}
    (h0 : Received s0 o0 d0 k0) (h1 : Received s1 o1 d1 k1)
    (u0 : ∀ o ∈ s0.order, s0.radar o = true ↔ o = o0) (u1 : ∀ o ∈ s1.order, s1.radar o = true ↔ o = o1)
    (hn0 : 0 < n0) (hn1 : 0 < n1) (hl : ∀ l, limit = some l → 0 < l) :
    ∃ (r : Roc) (x y : ℕ → ℝ) (n : ℕ), fromFile (.ok (s0, n0)) (.ok (s1, n1)) (limit.map Int.ofNat) T = .ok r ∧ (r.curve [0]).length = T ∧
      n ≤ n0 ∧ n ≤ n1 ∧ (∀ l, limit = some l → n ≤ l) ∧ (n = n0 ∨ n = n1 ∨ limit = some n) ∧
      (∀ i, IsPeak (s0.cube i d0 k0) (x i)) ∧ (∀ i, IsPeak (s1.cube i d1 k1) (y i)) ∧
      IsCurve ((List.range n).map (fun i => (x i, y i))) (r.curve [0]) := by
  have hpick : ∀ (s : Scenario) (o d k : ℕ), Received s o d k → (∀ p ∈ s.order, s.radar p = true ↔ p = o) →
      pick s none = .ok o ∧ pick s (some o) = .ok o := by
    intro s o d k h u
    obtain ⟨m, pre, t, rx, post, e, _, hm, _⟩ := h
    constructor
    · unfold pick
      dsimp only
      rw [if_neg, show s.order.find? s.radar = some o from ?_]
      · cases hf : s.order.find? s.radar with
        | none =>
          rw [List.find?_eq_none] at hf
          exact absurd ((u o m).2 rfl) (hf o m)
        | some p =>
          have h1 := List.find?_some hf
          have h2 := List.mem_of_find?_eq_some hf
          rw [(u p h2).1 h1]
      · unfold Scenario.numOperators
        rw [e, List.map_append, List.sum_append, List.map_cons, List.sum_cons]
        have : 0 < rx.length := List.length_pos_of_mem hm
        dsimp only
        omega
    · unfold pick; simp [m]
  obtain ⟨p0, q0⟩ := hpick s0 o0 d0 k0 h0 u0
  obtain ⟨p1, q1⟩ := hpick s1 o1 d1 k1 h1 u1
  have key : ∀ n : ℕ, fromScenarios s0 s1 n none none T = fromScenarios s0 s1 n (some o0) (some o1) T := by
    intro n
    unfold fromScenarios
    rw [p0, p1, q0, q1]
  cases limit with
  | none =>
    obtain ⟨r, x, y, h1, h2, h3, h4, h5⟩ := C97_scenarios_partial s0 s1 (n := min n0 n1) (by omega) o0 o1 T h0 h1
    refine ⟨r, x, y, min n0 n1, ?_, h2, by omega, by omega, by simp, by omega, h3, h4, h5⟩
    unfold fromFile
    dsimp only [Option.map_none]
    rw [← Nat.cast_min, key]
    exact h1
  | some l =>
    have hl := hl l rfl
    obtain ⟨r, x, y, h1, h2, h3, h4, h5⟩ := C97_scenarios_partial s0 s1 (n := min l (min n0 n1)) (by omega) o0 o1 T h0 h1
    refine ⟨r, x, y, min l (min n0 n1), ?_, h2, by omega, by omega, ?_, ?_, h3, h4, h5⟩
    · unfold fromFile
      dsimp only [Option.map_some]
      rw [show Int.ofNat l = (l : ℤ) from rfl, ← Nat.cast_min, ← Nat.cast_min, key]
      exact h1
    · intro m hm; injection hm with hm; omega
    · rcases Nat.le_total l (min n0 n1) with h | h
      · right; right; rw [min_eq_left h]
      · omega

example : ∀ o ∈ (lone 1).order, (lone 1).radar o = true ↔ o = 7 := by simp [lone]

end Verif.RadarRoc
