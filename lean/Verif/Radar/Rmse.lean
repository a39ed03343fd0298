import Verif.Radar.Roc
import Mathlib.Analysis.Real.Sqrt
import Mathlib.Data.List.ProdSigma
import Mathlib.Algebra.BigOperators.Group.List.Lemmas

/-!
# C98: root mean square errors and detections of radars

`RadarEvaluator`, `DetectionProbEvaluator`, `RootMeanSquareEvaluation` and `RootMeanSquareErrorResult`, `radar/evaluators.py`
108-430 and 1107-1253.  Coordinates are real numbers without NaN.
-/

namespace Verif.RadarError

open Verif.Radar Verif.RadarRoc

/-- Vectors in space. -/
abbrev Vec := ℝ × ℝ × ℝ

/-- `np.linalg.norm` of a difference. -/
noncomputable def distance (p q : Vec) : ℝ :=
  √((p.1 - q.1) ^ 2 + (p.2.1 - q.2.1) ^ 2 + (p.2.2 - q.2.2) ^ 2)

/-- A propagation path of a channel sample: its ground truth, position and velocity, if there is one.  Targets report their
position in global coordinates, `channel/radar/radar.py` 530-532. -/
abbrev Path := Option (Vec × Vec)

/-- A reception as far as evaluators look at it: its point cloud, if a detector is configured. -/
abbrev Cloud := Option (List (Point ℝ))

/-- Attributes of a `RadarEvaluator`: the latest reception and the latest channel sample, `radar/evaluators.py` 124-130. -/
structure Evaluator where
  reception : Option Cloud
  sample : Option (List Path)

/-- `RadarEvaluator.__init__`, `radar/evaluators.py` 132-183; `registered` tells whether the radar is a receiver of the
device. -/
def construct (registered : Bool) : Except PyErr Evaluator :=
  if !registered then .error .value else .ok ⟨none, none⟩

/-- What can happen while an evaluator exists: the radar receives, the channel is sampled. -/
inductive Event where
  | receive (cloud : Cloud)
  | sample (paths : List Path)

/-- The callbacks, `radar/evaluators.py` 185-205. -/
def Evaluator.step (e : Evaluator) : Event → Evaluator
  | .receive c => { e with reception := some c }
  | .sample s => { e with sample := some s }

/-- A history. -/
def Evaluator.run (e : Evaluator) (h : List Event) : Evaluator := h.foldl Evaluator.step e

/-- `_fetch_pcl`, `radar/evaluators.py` 207-239. -/
def Evaluator.fetchCloud (e : Evaluator) : Except PyErr (List (Point ℝ)) :=
  match e.reception with
  | none => .error .runtime
  | some none => .error .runtime
  | some (some c) => .ok c

/-- `_fetch_channel`, `radar/evaluators.py` 241-254. -/
def Evaluator.fetchChannel (e : Evaluator) : Except PyErr (List Path) :=
  match e.sample with
  | none => .error .runtime
  | some s => .ok s

/-- `RootMeanSquareError.evaluate`, `radar/evaluators.py` 1230-1239: positions of the points and of the ground truth. -/
def Evaluator.evaluate (e : Evaluator) : Except PyErr (List Vec × List Vec) :=
  match e.fetchCloud with
  | .error x => .error x
  | .ok cloud => match e.fetchChannel with
    | .error x => .error x
    | .ok paths => .ok (cloud.map Point.pos, paths.filterMap (fun p => p.map Prod.fst))

/-- The loop of `RootMeanSquareEvaluation.artifact`, `radar/evaluators.py` 1160-1161. -/
noncomputable def cumulate (acc : ℝ) : List (Vec × Vec) → ℝ
  | [] => acc
  | (p, q) :: rest => cumulate (acc + distance p q ^ 2) rest

/-- `RootMeanSquareEvaluation.artifact`, `radar/evaluators.py` 1156-1163: number of errors and sum of squares. -/
noncomputable def artifact (points truths : List Vec) : ℕ × ℝ :=
  (points.length * truths.length, cumulate 0 (points ×ˢ truths))

/-- `RootMeanSquareErrorResult`, `radar/evaluators.py` 1174-1193. -/
structure Result where
  shape : List ℕ
  sums : List ℕ → ℝ
  nums : List ℕ → ℕ

/-- `RootMeanSquareErrorResult.__init__`, `radar/evaluators.py` 1180-1193. -/
def Result.new (shape : List ℕ) : Result := ⟨shape, fun _ => 0, fun _ => 0⟩

/-- `RootMeanSquareErrorResult.add_artifact`, `radar/evaluators.py` 1195-1204.  Simplification: as many coordinates as the
grid has dimensions. -/
noncomputable def Result.add (r : Result) (coords : List ℕ) (a : ℕ × ℝ) : Except PyErr Result :=
  match locate r.shape coords with
  | .error e => .error e
  | .ok () => .ok { r with
      sums := fun c => if c = coords then r.sums c + a.2 else r.sums c
      nums := fun c => if c = coords then r.nums c + a.1 else r.nums c }

/-- `RootMeanSquareErrorResult.to_array()` at a coordinate, `radar/evaluators.py` 1210-1212; zero by zero is NaN. -/
noncomputable def Result.value (r : Result) (c : List ℕ) : Option ℝ :=
  if r.nums c = 0 then none else some (√(r.sums c / r.nums c))

/-- A simulation: for each of its samples the coordinates in the grid and the events since the previous evaluation. -/
noncomputable def simulate (e : Evaluator) (r : Result) : List (List ℕ × List Event) → Except PyErr Result
  | [] => .ok r
  | (c, events) :: rest => match (e.run events).evaluate with
    | .error x => .error x
    | .ok (points, truths) => match r.add c (artifact points truths) with
      | .error x => .error x
      | .ok s => simulate (e.run events) s rest

/-- `DetectionProbEvaluator`: the cloud of the latest reception, and its parameters, `radar/evaluators.py` 335-368, with those
of `ScalarEvaluator`, `core/pymonte/scalar.py` 258-284.  Plot scale and tick format are opaque numbers. -/
structure Detection where
  radar : ℕ
  confidence : ℝ
  tolerance : ℝ
  minSamples : ℤ
  scale : ℕ
  tick : ℕ
  surface : Bool
  cloud : Cloud

/-- `DetectionProbEvaluator.__init__`, `radar/evaluators.py` 339-368, `core/pymonte/scalar.py` 258-284, 311-316, 339-344 and
360-366. -/
noncomputable def Detection.construct (radar : ℕ) (confidence tolerance : ℝ) (minSamples : ℤ) (scale tick : ℕ) (surface : Bool) :
    Except PyErr Detection :=
  if confidence < 0 ∨ 1 < confidence then .error .value
  else if tolerance < 0 then .error .value
  else if minSamples < 2 then .error .value
  else .ok ⟨radar, confidence, tolerance, minSamples, scale, tick, surface, none⟩

/-- The callback, `radar/evaluators.py` 370-379. -/
def Detection.receive (d : Detection) (c : Cloud) : Detection := { d with cloud := c }

/-- `DetectionProbEvaluator.evaluate`, `radar/evaluators.py` 397-406. -/
def Detection.evaluate (d : Detection) : Except PyErr Bool :=
  match d.cloud with
  | none => .error .runtime
  | some c => .ok (decide (0 < c.length))

/-- `DetectionProbEvaluator.serialize` and `Deserialize`, `radar/evaluators.py` 411-430, with the defaults of the constructor,
lines 345-347; the plot scale `"log"` and tick format `ValueType.LIN` are `log` and `lin`. -/
noncomputable def Detection.restored (d : Detection) (log lin : ℕ) : Except PyErr Detection :=
  Detection.construct d.radar d.confidence d.tolerance d.minSamples log lin true

/-! ### Lemmas -/

/-- Squared distance. -/
def square (p q : Vec) : ℝ := (p.1 - q.1) ^ 2 + (p.2.1 - q.2.1) ^ 2 + (p.2.2 - q.2.2) ^ 2

theorem distance_sq (p q : Vec) : distance p q ^ 2 = square p q := by
  unfold distance square
  rw [Real.sq_sqrt (by positivity)]

theorem square_nonneg (p q : Vec) : 0 ≤ square p q := by unfold square; positivity

theorem square_eq_zero {p q : Vec} : square p q = 0 ↔ p = q := by
  constructor
  · intro h
    unfold square at h
    have h1 : (p.1 - q.1) ^ 2 = 0 := by nlinarith [sq_nonneg (p.1 - q.1), sq_nonneg (p.2.1 - q.2.1), sq_nonneg (p.2.2 - q.2.2)]
    have h2 : (p.2.1 - q.2.1) ^ 2 = 0 := by
      nlinarith [sq_nonneg (p.1 - q.1), sq_nonneg (p.2.1 - q.2.1), sq_nonneg (p.2.2 - q.2.2)]
    have h3 : (p.2.2 - q.2.2) ^ 2 = 0 := by
      nlinarith [sq_nonneg (p.1 - q.1), sq_nonneg (p.2.1 - q.2.1), sq_nonneg (p.2.2 - q.2.2)]
    have e1 := pow_eq_zero_iff (two_ne_zero) |>.1 h1
    have e2 := pow_eq_zero_iff (two_ne_zero) |>.1 h2
    have e3 := pow_eq_zero_iff (two_ne_zero) |>.1 h3
    ext
    · linarith
    · linarith
    · linarith
  · rintro rfl; simp [square]

theorem cumulate_eq (l : List (Vec × Vec)) (acc : ℝ) : cumulate acc l = acc + (l.map (fun x => square x.1 x.2)).sum := by
  induction l generalizing acc with
  | nil => simp [cumulate]
  | cons x l ih =>
    obtain ⟨p, q⟩ := x
    rw [cumulate, ih, distance_sq, List.map_cons, List.sum_cons]
    ring

theorem artifact_eq (points truths : List Vec) :
    artifact points truths = (points.length * truths.length, ((points ×ˢ truths).map (fun x => square x.1 x.2)).sum) := by
  unfold artifact
  rw [cumulate_eq, zero_add]

theorem add_inside (r : Result) {c : List ℕ} (a : ℕ × ℝ) (h : Inside r.shape c) :
    r.add c a = .ok { r with
      sums := fun d => if d = c then r.sums d + a.2 else r.sums d
      nums := fun d => if d = c then r.nums d + a.1 else r.nums d } := by
  unfold Result.add
  rw [locate_inside h]

/-! ### Theorems -/

/-- The latest reception in a history. -/
def LastReception (h : List Event) (c : Cloud) : Prop :=
  ∃ pre post, h = pre ++ .receive c :: post ∧ ∀ d, Event.receive d ∉ post

/-- The latest channel sample in a history. -/
def LastSample (h : List Event) (s : List Path) : Prop :=
  ∃ pre post, h = pre ++ .sample s :: post ∧ ∀ d, Event.sample d ∉ post

theorem run_append (e : Evaluator) (g h : List Event) : e.run (g ++ h) = (e.run g).run h := by
  unfold Evaluator.run; rw [List.foldl_append]

theorem run_keeps_reception (e : Evaluator) (h : List Event) (hh : ∀ d, Event.receive d ∉ h) :
    (e.run h).reception = e.reception := by
  induction h generalizing e with
  | nil => rfl
  | cons x h ih =>
    have := ih (e.step x) (fun d hd => hh d (List.mem_cons_of_mem _ hd))
    cases x with
    | receive d => exact absurd List.mem_cons_self (hh d)
    | sample s => exact this

theorem run_keeps_sample (e : Evaluator) (h : List Event) (hh : ∀ d, Event.sample d ∉ h) :
    (e.run h).sample = e.sample := by
  induction h generalizing e with
  | nil => rfl
  | cons x h ih =>
    have := ih (e.step x) (fun d hd => hh d (List.mem_cons_of_mem _ hd))
    cases x with
    | sample d => exact absurd List.mem_cons_self (hh d)
    | receive s => exact this

/-- Whatever happened before, an evaluation compares the points of the latest reception with the ground truth of the latest
channel sample. -/
theorem C98_latest (e : Evaluator) (h : List Event) {points : List (Point ℝ)} {paths : List Path}
    (hr : LastReception h (some points)) (hs : LastSample h paths) :
    (e.run h).evaluate = .ok (points.map Point.pos, paths.filterMap (fun p => p.map Prod.fst)) := by
  have e1 : (e.run h).reception = some (some points) := by
    obtain ⟨pre, post, rfl, hp⟩ := hr
    rw [run_append, show Evaluator.run (e.run pre) (Event.receive (some points) :: post) =
      Evaluator.run ((e.run pre).step (.receive (some points))) post from rfl, run_keeps_reception _ _ hp]
    rfl
  have e2 : (e.run h).sample = some paths := by
    obtain ⟨pre, post, rfl, hp⟩ := hs
    rw [run_append, show Evaluator.run (e.run pre) (Event.sample paths :: post) =
      Evaluator.run ((e.run pre).step (.sample paths)) post from rfl, run_keeps_sample _ _ hp]
    rfl
  unfold Evaluator.evaluate Evaluator.fetchCloud Evaluator.fetchChannel
  rw [e1, e2]

/-- A history as a simulation produces it. -/
example (p : Point ℝ) (q : Vec) :
    LastReception [.sample [some (q, q)], .receive none, .sample [none, some (q, q)], .receive (some [p])] (some [p]) ∧
    LastSample [.sample [some (q, q)], .receive none, .sample [none, some (q, q)], .receive (some [p])] [none, some (q, q)] :=
  ⟨⟨[.sample [some (q, q)], .receive none, .sample [none, some (q, q)]], [], rfl, by simp⟩,
   ⟨[.sample [some (q, q)], .receive none], [.receive (some [p])], rfl, by simp⟩⟩

/-- Evaluating before the radar received or the channel was sampled, or a radar without a detector, is refused. -/
theorem C98_refused (h : List Event)
    (hh : (∀ c, Event.receive c ∉ h) ∨ LastReception h none ∨ (∀ s, Event.sample s ∉ h)) :
    construct false = .error .value ∧ ∃ e, construct true = .ok e ∧ (e.run h).evaluate = .error .runtime := by
  refine ⟨rfl, ⟨none, none⟩, rfl, ?_⟩
  unfold Evaluator.evaluate Evaluator.fetchCloud Evaluator.fetchChannel
  rcases hh with hh | ⟨pre, post, rfl, hp⟩ | hh
  · rw [run_keeps_reception _ _ hh]
  · rw [run_append, show ∀ e, Evaluator.run e (Event.receive none :: post) =
      Evaluator.run (e.step (.receive none)) post from fun _ => rfl, run_keeps_reception _ _ hp]
    rfl
  · rw [run_keeps_sample _ _ hh]
    dsimp only
    split
    · rename_i x hx
      repeat' split at hx
      all_goals first | (cases hx; rfl) | cases hx
    · rfl

/-- What a simulated sample contributes: coordinates, detected positions, true positions. -/
def Sampled (x : List ℕ × List Event) (y : List ℕ × List Vec × List Vec) : Prop :=
  x.1 = y.1 ∧ ∃ points paths, LastReception x.2 (some points) ∧ LastSample x.2 paths ∧
    y.2.1 = points.map Point.pos ∧ y.2.2 = paths.filterMap (fun p => p.map Prod.fst)

/-- The value reported at each coordinate of a simulation is the root of the mean square distance between all detected
points and all targets of the samples drawn there; it is missing if there are none. -/
theorem C98_rmse (shape : List ℕ) (e : Evaluator) (h : List (List ℕ × List Event)) (ys : List (List ℕ × List Vec × List Vec))
    (hs : List.Forall₂ Sampled h ys) (hin : ∀ x ∈ h, Inside shape x.1) :
    ∃ r, simulate e (Result.new shape) h = .ok r ∧ ∀ c,
      let mine := (ys.filter (fun y => decide (y.1 = c))).flatMap (fun y => y.2.1 ×ˢ y.2.2)
      (mine = [] → r.value c = none) ∧
      (mine ≠ [] → r.value c = some (√((mine.map (fun x => square x.1 x.2)).sum / mine.length))) := by
  have key : ∀ (h : List (List ℕ × List Event)) (ys : List (List ℕ × List Vec × List Vec)) (e : Evaluator) (r : Result),
      List.Forall₂ Sampled h ys → (∀ x ∈ h, Inside r.shape x.1) →
      ∃ s, simulate e r h = .ok s ∧ ∀ c,
        let mine := (ys.filter (fun y => decide (y.1 = c))).flatMap (fun y => y.2.1 ×ˢ y.2.2)
        s.nums c = r.nums c + mine.length ∧ s.sums c = r.sums c + (mine.map (fun x => square x.1 x.2)).sum := by
    intro h ys e r hs
    induction hs generalizing e r with
    | nil => intro _; exact ⟨r, rfl, by simp⟩
    | @cons x y h ys hxy _ ih =>
      intro hin
      obtain ⟨hc, points, paths, hr, hsm, e1, e2⟩ := hxy
      obtain ⟨c0, events⟩ := x
      obtain ⟨c1, pts, truths⟩ := y
      dsimp only at hc e1 e2 hr hsm
      subst hc
      obtain ⟨s, h1, h2⟩ := ih (e.run events) { r with
        sums := fun d => if d = c0 then r.sums d + (artifact pts truths).2 else r.sums d
        nums := fun d => if d = c0 then r.nums d + (artifact pts truths).1 else r.nums d }
        (fun z hz => hin z (List.mem_cons_of_mem _ hz))
      refine ⟨s, ?_, ?_⟩
      · unfold simulate
        rw [C98_latest e events hr hsm, ← e1, ← e2]
        dsimp only
        rw [add_inside r _ (hin _ List.mem_cons_self)]
        exact h1
      · intro c
        obtain ⟨h3, h4⟩ := h2 c
        dsimp only at h3 h4 ⊢
        rw [h3, h4]
        by_cases hcc : c = c0
        · subst hcc
          rw [List.filter_cons_of_pos (by simp), List.flatMap_cons, List.length_append,
            List.map_append, List.sum_append, List.length_product]
          constructor
          · rw [if_pos rfl, artifact_eq]; dsimp only; omega
          · rw [if_pos rfl, artifact_eq]; dsimp only; ring
        · rw [if_neg hcc, if_neg hcc, List.filter_cons_of_neg (by simpa using fun e => hcc e.symm)]
          exact ⟨rfl, rfl⟩
  obtain ⟨s, h1, h2⟩ := key h ys e (Result.new shape) hs hin
  refine ⟨s, h1, ?_⟩
  intro c
  obtain ⟨h3, h4⟩ := h2 c
  dsimp only at h3 h4 ⊢
  generalize (ys.filter (fun y => decide (y.1 = c))).flatMap (fun y => y.2.1 ×ˢ y.2.2) = mine at *
  have h3' : s.nums c = mine.length := by rw [h3]; simp [Result.new]
  have h4' : s.sums c = (mine.map (fun x => square x.1 x.2)).sum := by rw [h4]; simp [Result.new]
  unfold Result.value
  constructor
  · intro hm
    rw [if_pos (by rw [h3', hm]; rfl)]
  · intro hm
    rw [if_neg (by rw [h3']; simpa using hm), h3', h4']

/-- A sample with two points and two targets. -/
example (p q : Point ℝ) (u v : Vec) :
    Sampled ([0], [.sample [some (u, u), none, some (v, v)], .receive (some [p, q])]) ([0], [p.pos, q.pos], [u, v]) ∧ Inside [1] [0] :=
  ⟨⟨rfl, [p, q], [some (u, u), none, some (v, v)], ⟨[.sample [some (u, u), none, some (v, v)]], [], rfl, by simp⟩,
    ⟨[], [.receive (some [p, q])], rfl, by simp⟩, rfl, rfl⟩, by simp [Inside]⟩

theorem sum_eq_zero {l : List (Vec × Vec)} :
    (l.map (fun x => square x.1 x.2)).sum = 0 ↔ ∀ x ∈ l, x.1 = x.2 := by
  induction l with
  | nil => simp
  | cons x l ih =>
    have h1 : 0 ≤ (l.map (fun x => square x.1 x.2)).sum := by
      apply List.sum_nonneg
      intro y hy
      obtain ⟨z, _, rfl⟩ := List.mem_map.1 hy
      exact square_nonneg _ _
    have h2 := square_nonneg x.1 x.2
    rw [List.map_cons, List.sum_cons]
    constructor
    · intro h
      have e1 : square x.1 x.2 = 0 := by linarith
      have e2 : (l.map (fun x => square x.1 x.2)).sum = 0 := by linarith
      intro y hy
      rcases List.mem_cons.1 hy with rfl | hy
      · exact square_eq_zero.1 e1
      · exact ih.1 e2 y hy
    · intro h
      rw [square_eq_zero.2 (h x List.mem_cons_self), ih.2 (fun y hy => h y (List.mem_cons_of_mem _ hy)), add_zero]

/-- With a single target per sample, the value reported is zero exactly if every point detected lies at the target of its
sample. -/
theorem C98_single_partial (shape : List ℕ) (e : Evaluator) (h : List (List ℕ × List Event))
    (ys : List (List ℕ × List Vec × List Vec)) (hs : List.Forall₂ Sampled h ys) (hin : ∀ x ∈ h, Inside shape x.1)
    (target : ∀ y ∈ ys, ∃ t, y.2.2 = [t]) (c : List ℕ) (hd : ∃ y ∈ ys, y.1 = c ∧ y.2.1 ≠ []) :
    ∃ r v, simulate e (Result.new shape) h = .ok r ∧ r.value c = some v ∧ 0 ≤ v ∧
      (v = 0 ↔ ∀ y ∈ ys, y.1 = c → ∀ p ∈ y.2.1, y.2.2 = [p]) := by
  obtain ⟨r, h1, h2⟩ := C98_rmse shape e h ys hs hin
  obtain ⟨_, h3⟩ := h2 c
  set mine := (ys.filter (fun y => decide (y.1 = c))).flatMap (fun y => y.2.1 ×ˢ y.2.2) with hm
  have hne : mine ≠ [] := by
    obtain ⟨y, hy, hc, hp⟩ := hd
    obtain ⟨t, ht⟩ := target y hy
    obtain ⟨p, hp⟩ := List.exists_mem_of_ne_nil _ hp
    apply List.ne_nil_of_mem (a := (p, t))
    rw [hm, List.mem_flatMap]
    exact ⟨y, List.mem_filter.2 ⟨hy, by simp [hc]⟩, List.mem_product.2 ⟨hp, by simp [ht]⟩⟩
  refine ⟨r, _, h1, h3 hne, Real.sqrt_nonneg _, ?_⟩
  have hlen : (0 : ℝ) < mine.length := by exact_mod_cast List.length_pos_iff.2 hne
  have hsum : 0 ≤ (mine.map (fun x => square x.1 x.2)).sum := by
    apply List.sum_nonneg
    intro y hy
    obtain ⟨z, _, rfl⟩ := List.mem_map.1 hy
    exact square_nonneg _ _
  rw [Real.sqrt_eq_zero (by positivity), div_eq_zero_iff, or_iff_left hlen.ne', sum_eq_zero]
  constructor
  · intro hall y hy hc p hp
    obtain ⟨t, ht⟩ := target y hy
    have := hall (p, t) (by
      rw [hm, List.mem_flatMap]
      exact ⟨y, List.mem_filter.2 ⟨hy, by simp [hc]⟩, List.mem_product.2 ⟨hp, by simp [ht]⟩⟩)
    dsimp only at this
    rw [this, ht]
  · rintro hall ⟨p, t⟩ hx
    rw [hm, List.mem_flatMap] at hx
    obtain ⟨y, hy, hx⟩ := hx
    obtain ⟨hy, hc⟩ := List.mem_filter.1 hy
    obtain ⟨hp, ht⟩ := List.mem_product.1 hx
    have := hall y hy (by simpa using hc) p hp
    rw [this] at ht
    simpa using (List.mem_singleton.1 ht).symm

example (p : Point ℝ) : Sampled ([0], [.sample [some (p.pos, p.vel)], .receive (some [p])]) ([0], [p.pos], [p.pos]) :=
  ⟨rfl, [p], [some (p.pos, p.vel)], ⟨[.sample [some (p.pos, p.vel)]], [], rfl, by simp⟩,
    ⟨[], [.receive (some [p])], rfl, by simp⟩, rfl, rfl⟩

/-- Two targets, both detected exactly where they are, yield an error: their distance divided by the root of two. -/
theorem C98_several_fails (e : Evaluator) (p q : Point ℝ) :
    ∃ r, simulate e (Result.new [1]) [([0], [.sample [some (p.pos, p.vel), some (q.pos, q.vel)], .receive (some [p, q])])] = .ok r ∧
      r.value [0] = some (√(square p.pos q.pos / 2)) := by
  obtain ⟨r, h1, h2⟩ := C98_rmse [1] e
    [([0], [.sample [some (p.pos, p.vel), some (q.pos, q.vel)], .receive (some [p, q])])]
    [([0], [p.pos, q.pos], [p.pos, q.pos])]
    (List.Forall₂.cons ⟨rfl, [p, q], [some (p.pos, p.vel), some (q.pos, q.vel)],
      ⟨[.sample [some (p.pos, p.vel), some (q.pos, q.vel)]], [], rfl, by simp⟩,
      ⟨[], [.receive (some [p, q])], rfl, by simp⟩, rfl, rfl⟩ List.Forall₂.nil) (by simp [Inside])
  refine ⟨r, h1, ?_⟩
  obtain ⟨_, h3⟩ := h2 [0]
  have e1 : ([(([0] : List ℕ), [p.pos, q.pos], [p.pos, q.pos])].filter (fun y => decide (y.1 = [0]))).flatMap (fun y => y.2.1 ×ˢ y.2.2) =
      [(p.pos, p.pos), (p.pos, q.pos), (q.pos, p.pos), (q.pos, q.pos)] := by rfl
  rw [e1] at h3
  rw [h3 (by simp)]
  congr 2
  have : square q.pos p.pos = square p.pos q.pos := by unfold square; ring
  simp only [List.map_cons, List.map_nil, List.sum_cons, List.sum_nil, square_eq_zero.2 rfl, this, List.length_cons, List.length_nil]
  push_cast
  ring

/-- A radar of known position: its points are ranges along directions, so they are relative to the radar.  A target's true
position is global.  A radar away from the origin which measures the distance of its only target exactly has an error
whenever target and radar are not as far apart as target and origin are. -/
theorem C98_pose_fails (e : Evaluator) (t : Trig ℝ) (ht : ∀ x, t.sin x ^ 2 + t.cos x ^ 2 = 1) (radar target vel : Vec)
    (zenith azimuth velocity power : ℝ) (hp : 0 < power) (hd : distance target radar ≠ distance target (0, 0, 0)) :
    ∃ p r v, fromSpherical t zenith azimuth (distance target radar) velocity power = .ok p ∧
      simulate e (Result.new [1]) [([0], [.sample [some (target, vel)], .receive (some [p])])] = .ok r ∧
      r.value [0] = some v ∧ 0 < v := by
  obtain ⟨p, hpe, hpp⟩ : ∃ p, fromSpherical t zenith azimuth (distance target radar) velocity power = .ok p ∧
      p.pos = scale (distance target radar) (normal t zenith azimuth) := by
    refine ⟨⟨scale (distance target radar) (normal t zenith azimuth), scale velocity (normal t zenith azimuth), power⟩, ?_, rfl⟩
    unfold fromSpherical
    rw [if_neg (not_le.2 hp)]
  obtain ⟨r, v, h1, h2, h3, h4⟩ := C98_single_partial [1] e [([0], [.sample [some (target, vel)], .receive (some [p])])]
    [([0], [p.pos], [target])]
    (List.Forall₂.cons ⟨rfl, [p], [some (target, vel)], ⟨[.sample [some (target, vel)]], [], rfl, by simp⟩,
      ⟨[], [.receive (some [p])], rfl, by simp⟩, rfl, rfl⟩ List.Forall₂.nil) (by simp [Inside])
    (by intro y hy; rw [List.mem_singleton.1 hy]; exact ⟨target, rfl⟩) [0] (by simp)
  refine ⟨p, r, v, hpe, h1, h2, lt_of_le_of_ne h3 ?_⟩
  intro h0
  have := h4.1 h0.symm ([0], [p.pos], [target]) (by simp) rfl p.pos (by simp)
  have hpos : target = p.pos := by simpa using this
  apply hd
  have hr : 0 ≤ distance target radar := Real.sqrt_nonneg _
  have hn : ∀ ρ : ℝ, 0 ≤ ρ → distance (scale ρ (normal t zenith azimuth)) (0, 0, 0) = ρ := by
    intro ρ hρ
    unfold distance scale normal
    rw [Real.sqrt_eq_iff_mul_self_eq (by positivity) hρ]
    have h1 := ht zenith
    have h2 := ht azimuth
    dsimp only
    have : (ρ * (t.cos azimuth * t.sin zenith) - 0) ^ 2 + (ρ * (t.sin azimuth * t.sin zenith) - 0) ^ 2 + (ρ * t.cos zenith - 0) ^ 2 =
        ρ ^ 2 * ((t.sin azimuth ^ 2 + t.cos azimuth ^ 2) * t.sin zenith ^ 2 + t.cos zenith ^ 2) := by ring
    rw [this, h2, one_mul, h1]
    ring
  conv_rhs => rw [hpos, hpp, hn _ hr]

example : distance (3, 4, 0) (3, 0, 0) ≠ distance (3, 4, 0) (0, 0, 0) := by
  unfold distance
  norm_num

/-- With directions in global coordinates as well, the error of a radar which makes no errors is its distance from the
origin. -/
theorem C98_offset_fails (e : Evaluator) (radar target vel : Vec) (p : Point ℝ)
    (hp : p.pos = (target.1 - radar.1, target.2.1 - radar.2.1, target.2.2 - radar.2.2)) :
    ∃ r, simulate e (Result.new [1]) [([0], [.sample [some (target, vel)], .receive (some [p])])] = .ok r ∧
      r.value [0] = some (distance radar (0, 0, 0)) := by
  obtain ⟨r, h1, h2⟩ := C98_rmse [1] e [([0], [.sample [some (target, vel)], .receive (some [p])])]
    [([0], [p.pos], [target])]
    (List.Forall₂.cons ⟨rfl, [p], [some (target, vel)], ⟨[.sample [some (target, vel)]], [], rfl, by simp⟩,
      ⟨[], [.receive (some [p])], rfl, by simp⟩, rfl, rfl⟩ List.Forall₂.nil) (by simp [Inside])
  refine ⟨r, h1, ?_⟩
  obtain ⟨_, h3⟩ := h2 [0]
  have e1 : ([(([0] : List ℕ), [p.pos], [target])].filter (fun y => decide (y.1 = [0]))).flatMap (fun y => y.2.1 ×ˢ y.2.2) =
      [(p.pos, target)] := by rfl
  rw [e1] at h3
  rw [h3 (by simp)]
  congr 1
  simp only [List.map_cons, List.map_nil, List.sum_cons, List.sum_nil, List.length_cons, List.length_nil]
  unfold square distance
  rw [hp]
  congr 1
  push_cast
  ring

/-- Samples in which nothing is detected do not count: a target missed in every other sample leaves the value as it is. -/
theorem C98_missed (shape : List ℕ) (e : Evaluator) (h : List (List ℕ × List Event)) (ys : List (List ℕ × List Vec × List Vec))
    (hs : List.Forall₂ Sampled h ys) (hin : ∀ x ∈ h, Inside shape x.1) {h' : List (List ℕ × List Event)}
    {ys' : List (List ℕ × List Vec × List Vec)} (hs' : List.Forall₂ Sampled h' ys') (hin' : ∀ x ∈ h', Inside shape x.1)
    (hm : ys' = ys.filter (fun y => decide (y.2.1 ≠ []))) :
    ∃ r s, simulate e (Result.new shape) h = .ok r ∧ simulate e (Result.new shape) h' = .ok s ∧ ∀ c, r.value c = s.value c := by
  obtain ⟨r, h1, h2⟩ := C98_rmse shape e h ys hs hin
  obtain ⟨s, h3, h4⟩ := C98_rmse shape e h' ys' hs' hin'
  refine ⟨r, s, h1, h3, ?_⟩
  intro c
  obtain ⟨a1, a2⟩ := h2 c
  obtain ⟨b1, b2⟩ := h4 c
  have key : (ys'.filter (fun y => decide (y.1 = c))).flatMap (fun y => y.2.1 ×ˢ y.2.2) =
      (ys.filter (fun y => decide (y.1 = c))).flatMap (fun y => y.2.1 ×ˢ y.2.2) := by
    rw [hm]
    clear a1 a2 b1 b2 hs hs' hm h2 h4
    induction ys with
    | nil => rfl
    | cons y ys ih =>
      obtain ⟨d, pts, truths⟩ := y
      by_cases hp : pts = []
      · subst hp
        rw [List.filter_cons_of_neg (by simp), ih]
        by_cases hd : d = c
        · rw [List.filter_cons_of_pos (by simpa using hd), List.flatMap_cons]
          rfl
        · rw [List.filter_cons_of_neg (by simpa using hd)]
      · rw [List.filter_cons_of_pos (by simpa using hp)]
        by_cases hd : d = c
        · rw [List.filter_cons_of_pos (by simpa using hd), List.filter_cons_of_pos (by simpa using hd), List.flatMap_cons,
            List.flatMap_cons, ih]
        · rw [List.filter_cons_of_neg (by simpa using hd), List.filter_cons_of_neg (by simpa using hd), ih]
  rw [key] at b1 b2
  by_cases he : (ys.filter (fun y => decide (y.1 = c))).flatMap (fun y => y.2.1 ×ˢ y.2.2) = []
  · rw [a1 he, b1 he]
  · rw [a2 he, b2 he]

example (u : Vec) : Sampled ([0], [.sample [some (u, u)], .receive (some [])]) ([0], [], [u]) :=
  ⟨rfl, [], [some (u, u)], ⟨[.sample [some (u, u)]], [], rfl, by simp⟩, ⟨[], [.receive (some [])], rfl, by simp⟩, rfl, rfl⟩

/-- A detection is reported exactly if the latest reception has a point; without reception, or without a detector in the
latest reception, evaluating is refused. -/
theorem C98_detection (radar : ℕ) (confidence tolerance : ℝ) (minSamples : ℤ) (scale tick : ℕ) (surface : Bool) (d : Detection)
    (hd : Detection.construct radar confidence tolerance minSamples scale tick surface = .ok d) (h : List Cloud) :
    d.evaluate = .error .runtime ∧
    ((h.foldl Detection.receive d).receive none).evaluate = .error .runtime ∧
    ∀ points, ∃ b, ((h.foldl Detection.receive d).receive (some points)).evaluate = .ok b ∧ (b = true ↔ ∃ p, p ∈ points) := by
  refine ⟨?_, rfl, ?_⟩
  · unfold Detection.construct at hd
    repeat' split at hd
    all_goals first | (injection hd with hd; rw [← hd]; rfl) | cases hd
  · intro points
    refine ⟨decide (0 < points.length), rfl, ?_⟩
    rw [decide_eq_true_eq, List.length_pos_iff_exists_mem]

example : ∃ d, Detection.construct 0 (1 / 2) 0 2 0 0 true = .ok d := by
  refine ⟨⟨0, 1 / 2, 0, 2, 0, 0, true, none⟩, ?_⟩
  unfold Detection.construct
  norm_num

/-- Stored detection evaluators keep their radar and the parameters of the confidence test. -/
theorem C98_store_partial (radar : ℕ) (confidence tolerance : ℝ) (minSamples : ℤ) (scale tick log lin : ℕ) (surface : Bool)
    (d : Detection) (hd : Detection.construct radar confidence tolerance minSamples scale tick surface = .ok d) (h : List Cloud) :
    ∃ r, (h.foldl Detection.receive d).restored log lin = .ok r ∧ r.radar = radar ∧ r.confidence = confidence ∧
      r.tolerance = tolerance ∧ r.minSamples = minSamples := by
  have keep : ∀ (h : List Cloud) (d : Detection), (h.foldl Detection.receive d).radar = d.radar ∧
      (h.foldl Detection.receive d).confidence = d.confidence ∧ (h.foldl Detection.receive d).tolerance = d.tolerance ∧
      (h.foldl Detection.receive d).minSamples = d.minSamples := by
    intro h
    induction h with
    | nil => intro d; exact ⟨rfl, rfl, rfl, rfl⟩
    | cons x h ih => intro d; exact ih (d.receive x)
  obtain ⟨k1, k2, k3, k4⟩ := keep h d
  unfold Detection.restored
  rw [k1, k2, k3, k4]
  unfold Detection.construct at hd
  repeat' split at hd
  all_goals cases hd
  rename_i c1 c2 c3
  refine ⟨⟨radar, confidence, tolerance, minSamples, log, lin, true, none⟩, ?_, rfl, rfl, rfl, rfl⟩
  unfold Detection.construct
  dsimp only
  rw [if_neg c1, if_neg c2, if_neg c3]

/-- They lose their plot scale, tick format and choice of surface plots. -/
theorem C98_store_fails (log lin : ℕ) : ∃ d r, Detection.construct 0 1 0 2 (log + 1) (lin + 1) false = .ok d ∧
    d.restored log lin = .ok r ∧ r.scale ≠ d.scale ∧ r.tick ≠ d.tick ∧ r.surface ≠ d.surface := by
  refine ⟨⟨0, 1, 0, 2, log + 1, lin + 1, false, none⟩, ⟨0, 1, 0, 2, log, lin, true, none⟩, ?_, ?_, ?_, ?_, ?_⟩
  · unfold Detection.construct; norm_num
  · unfold Detection.restored Detection.construct; norm_num
  · simp
  · simp
  · simp

end Verif.RadarError
