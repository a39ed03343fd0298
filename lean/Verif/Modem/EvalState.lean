import Mathlib.Data.Rat.Defs
import Mathlib.Algebra.Order.Ring.Rat
import Mathlib.Tactic.NormNum
import Mathlib.Tactic.Linarith
import Verif.Np

/-!
# The life of a communication evaluator

`hermespy/modem/evaluators.py` 38-159 (`CommunicationEvaluator`) on top of
`hermespy/core/pymonte/scalar.py` 218-375 (`ScalarEvaluator`): construction, assignments to the stopping
parameters, the callbacks caching the newest transmission and reception, the result object created for a
simulation grid, and storing / restoring the evaluator.

Simplifications: modems, transmissions and receptions are opaque values; `plot_scale` and `tick_format` are
opaque numbers; confidence and tolerance are rationals (no NaN); assigning an attribute through the public
setters is the only way they change.
-/

namespace Verif.Modem.EvalState

open Verif (PyErr)

/-- Attributes of a `CommunicationEvaluator`.  `ownSurface` is the name-mangled
`_CommunicationEvaluator__plot_surface` declared at `modem/evaluators.py` 52, `surface` the
`_ScalarEvaluator__plot_surface` of `core/pymonte/scalar.py` 256; an absent attribute is `none`. -/
structure Evaluator (M T R : Type) where
  /-- transmitting modem -/
  tx : M
  /-- receiving modem -/
  rx : M
  /-- required confidence level -/
  confidence : ℚ
  /-- tolerated deviation -/
  tolerance : ℚ
  /-- number of samples between confidence tests -/
  minSamples : Int
  /-- plot scale -/
  scale : Nat
  /-- tick format -/
  tick : Nat
  /-- surface plots enabled -/
  surface : Bool
  /-- `_CommunicationEvaluator__plot_surface` -/
  ownSurface : Option Bool
  /-- cached transmission -/
  transmission : Option T
  /-- cached reception -/
  reception : Option R

variable {M T R : Type}

/-- `ScalarEvaluator.confidence` setter, `core/pymonte/scalar.py` 311-316. -/
def setConfidence (e : Evaluator M T R) (v : ℚ) : Except PyErr (Evaluator M T R) :=
  if v < 0 ∨ v > 1 then .error .value else .ok { e with confidence := v }

/-- `ScalarEvaluator.tolerance` setter, `core/pymonte/scalar.py` 339-344. -/
def setTolerance (e : Evaluator M T R) (v : ℚ) : Except PyErr (Evaluator M T R) :=
  if v < 0 then .error .value else .ok { e with tolerance := v }

/-- `ScalarEvaluator.min_num_samples` setter, `core/pymonte/scalar.py` 360-366. -/
def setMinSamples (e : Evaluator M T R) (v : Int) : Except PyErr (Evaluator M T R) :=
  if v < 2 then .error .value else .ok { e with minSamples := v }

/-- `ScalarEvaluator.plot_surface` setter, `core/pymonte/scalar.py` 373-375. -/
def setSurface (e : Evaluator M T R) (v : Bool) : Evaluator M T R := { e with surface := v }

/-- `CommunicationEvaluator.__init__`, `modem/evaluators.py` 54-91, with `ScalarEvaluator.__init__`,
`core/pymonte/scalar.py` 258-284: the setters run in the order confidence, tolerance, number of samples.
The registration of the two callbacks (lines 90-91) is represented by the events `transmit` and
`receive` below. -/
def construct (tx rx : M) (confidence tolerance : ℚ) (minSamples : Int) (scale tick : Nat)
    (surface : Bool) : Except PyErr (Evaluator M T R) :=
  let blank : Evaluator M T R :=
    { tx := tx
      rx := rx
      confidence := 0
      tolerance := 0
      minSamples := 0
      scale := scale
      tick := tick
      surface := surface
      ownSurface := none
      transmission := none
      reception := none }
  match setConfidence blank confidence with
  | .error e => .error e
  | .ok a =>
    match setTolerance a tolerance with
    | .error e => .error e
    | .ok b => setMinSamples b minSamples

/-- What can happen to an evaluator: its modems transmit or receive, or the user assigns an attribute. -/
inductive Op (T R : Type) where
  | transmit (t : T)
  | receive (r : R)
  | confidence (v : ℚ)
  | tolerance (v : ℚ)
  | minSamples (v : Int)
  | surface (v : Bool)

/-- The outcome of an assignment that may raise: the evaluator afterwards and the exception. -/
def settle (e : Evaluator M T R) : Except PyErr (Evaluator M T R) → Evaluator M T R × Option PyErr
  | .ok e' => (e', none)
  | .error x => (e, some x)

/-- One event.  The callbacks are `modem/evaluators.py` 105-113. -/
def step (e : Evaluator M T R) : Op T R → Evaluator M T R × Option PyErr
  | .transmit t => ({ e with transmission := some t }, none)
  | .receive r => ({ e with reception := some r }, none)
  | .confidence v => settle e (setConfidence e v)
  | .tolerance v => settle e (setTolerance e v)
  | .minSamples v => settle e (setMinSamples e v)
  | .surface v => (setSurface e v, none)

/-- A history of events; exceptions are caught by the caller. -/
def run (e : Evaluator M T R) : List (Op T R) → Evaluator M T R
  | [] => e
  | o :: os => run (step e o).1 os

/-- `CommunicationEvaluator._fetch_dsp_results`, `modem/evaluators.py` 115-135. -/
def fetch (e : Evaluator M T R) : Except PyErr (T × R) :=
  match e.transmission with
  | none => .error .runtime
  | some t =>
    match e.reception with
    | none => .error .runtime
    | some r => .ok (t, r)

/-- The parameters kept by a `ScalarEvaluationResult`, `core/pymonte/scalar.py` 86-92. -/
structure Result where
  /-- tolerated deviation -/
  accuracy : ℚ
  /-- required confidence -/
  confidence : ℚ
  /-- samples between tests -/
  minSamples : Int
  /-- surface plots -/
  surface : Bool
  deriving DecidableEq

/-- `ScalarEvaluationResult.__init__`, `core/pymonte/scalar.py` 45-92 (the grid and the sums are the subject
of C19). -/
def Result.init (accuracy confidence : ℚ) (minSamples : Int) (surface : Bool) : Except PyErr Result :=
  if confidence > 1 ∨ confidence < 0 then .error .value
  else if accuracy < 0 then .error .value
  else if minSamples < 2 then .error .value
  else .ok ⟨accuracy, confidence, minSamples, surface⟩

/-- `ScalarEvaluator.initialize_result`, `core/pymonte/scalar.py` 286-290. -/
def initializeResult (e : Evaluator M T R) : Except PyErr Result :=
  Result.init e.tolerance e.confidence e.minSamples e.surface

/-- What is written by a serialisation. -/
structure Record (M : Type) where
  /-- field `transmitting_modem` -/
  tx : M
  /-- field `receiving_modem` -/
  rx : M
  /-- field `plot_surface`, possibly absent -/
  surface : Option Int

/-- `CommunicationEvaluator.serialize`, `modem/evaluators.py` 146-150: reads
`_CommunicationEvaluator__plot_surface`. -/
def serialize (e : Evaluator M T R) : Except PyErr (Record M) :=
  match e.ownSurface with
  | none => .error .attribute
  | some b => .ok ⟨e.tx, e.rx, some (if b then 1 else 0)⟩

/-- `bool(process.deserialize_integer("plot_surface", cls._DEFAULT_PLOT_SURFACE))`,
`modem/evaluators.py` 158, default from line 44. -/
def storedSurface (r : Record M) : Bool :=
  match r.surface with
  | none => true
  | some i => i != 0

/-- A Python `bool` used as a number. -/
def boolNum (b : Bool) : ℚ := if b then 1 else 0

/-- `CommunicationEvaluator.Deserialize`, `modem/evaluators.py` 152-159, for the subclasses which inherit the
constructor: the third positional argument is `confidence`; the others keep the defaults of lines 58-63. -/
def deserialize (r : Record M) : Except PyErr (Evaluator M T R) :=
  construct r.tx r.rx (boolNum (storedSurface r)) 0 1024 1 0 true

/-- The same for `ThroughputEvaluator`, whose constructor (`modem/evaluators.py` 459-485) takes
`plot_surface` as third argument. -/
def deserializeThroughput (r : Record M) : Except PyErr (Evaluator M T R) :=
  construct r.tx r.rx 1 0 1024 1 0 (storedSurface r)

/-! ### Specification helpers -/

/-- The value in force after a history: the last accepted one, or the initial one. -/
def lastOr {α β : Type} (accepted : β → Option α) (init : α) (ops : List β) : α :=
  ((ops.filterMap accepted).getLast?).getD init

theorem lastOr_nil {α β : Type} (f : β → Option α) (a : α) : lastOr f a [] = a := rfl

theorem lastOr_cons {α β : Type} (f : β → Option α) (a : α) (o : β) (os : List β) :
    lastOr f a (o :: os) = lastOr f ((f o).getD a) os := by
  unfold lastOr
  cases h : f o with
  | none => simp [List.filterMap_cons, h]
  | some b =>
    simp only [List.filterMap_cons, h, Option.getD_some]
    cases hl : os.filterMap f with
    | nil => simp
    | cons x xs => simp [List.getLast?_cons]

/-- Confidence levels accepted by an evaluator lie between zero and one. -/
def acceptConfidence : Op T R → Option ℚ
  | .confidence v => if 0 ≤ v ∧ v ≤ 1 then some v else none
  | _ => none

/-- Tolerances are not negative. -/
def acceptTolerance : Op T R → Option ℚ
  | .tolerance v => if 0 ≤ v then some v else none
  | _ => none

/-- At least two samples. -/
def acceptMinSamples : Op T R → Option Int
  | .minSamples v => if 2 ≤ v then some v else none
  | _ => none

/-- Every flag is accepted. -/
def acceptSurface : Op T R → Option Bool
  | .surface v => some v
  | _ => none

/-- Transmissions of the modem. -/
def transmitted : Op T R → Option (Option T)
  | .transmit t => some (some t)
  | _ => none

/-- Receptions of the modem. -/
def received : Op T R → Option (Option R)
  | .receive r => some (some r)
  | _ => none

theorem step_fields (e : Evaluator M T R) (o : Op T R) :
    (step e o).1.confidence = (acceptConfidence o).getD e.confidence ∧
    (step e o).1.tolerance = (acceptTolerance o).getD e.tolerance ∧
    (step e o).1.minSamples = (acceptMinSamples o).getD e.minSamples ∧
    (step e o).1.surface = (acceptSurface o).getD e.surface ∧
    (step e o).1.transmission = (transmitted o).getD e.transmission ∧
    (step e o).1.reception = (received o).getD e.reception ∧
    (step e o).1.ownSurface = e.ownSurface ∧
    (step e o).1.tx = e.tx ∧ (step e o).1.rx = e.rx ∧
    (step e o).1.scale = e.scale ∧ (step e o).1.tick = e.tick := by
  cases o with
  | transmit t => simp [step, acceptConfidence, acceptTolerance, acceptMinSamples, acceptSurface, transmitted, received]
  | receive t => simp [step, acceptConfidence, acceptTolerance, acceptMinSamples, acceptSurface, transmitted, received]
  | surface t => simp [step, setSurface, acceptConfidence, acceptTolerance, acceptMinSamples, acceptSurface, transmitted, received]
  | confidence v =>
    by_cases h : v < 0 ∨ v > 1
    · have h' : ¬ (0 ≤ v ∧ v ≤ 1) := by
        rintro ⟨a, b⟩
        rcases h with h | h <;> linarith
      simp [step, setConfidence, settle, h, h', acceptConfidence, acceptTolerance, acceptMinSamples, acceptSurface, transmitted, received]
    · have h' : 0 ≤ v ∧ v ≤ 1 := by
        push Not at h
        exact h
      simp [step, setConfidence, settle, h, h', acceptConfidence, acceptTolerance, acceptMinSamples, acceptSurface, transmitted, received]
  | tolerance v =>
    by_cases h : v < 0
    · have h' : ¬ 0 ≤ v := by linarith
      simp [step, setTolerance, settle, h, -not_le, h', acceptConfidence, acceptTolerance, acceptMinSamples, acceptSurface, transmitted, received]
    · have h' : 0 ≤ v := by linarith
      simp [step, setTolerance, settle, h, h', acceptConfidence, acceptTolerance, acceptMinSamples, acceptSurface, transmitted, received]
  | minSamples v =>
    by_cases h : v < 2
    · have h' : ¬ 2 ≤ v := by omega
      simp [step, setMinSamples, settle, h, -not_le, h', acceptConfidence, acceptTolerance, acceptMinSamples, acceptSurface, transmitted, received]
    · have h' : 2 ≤ v := by omega
      simp [step, setMinSamples, settle, h, h', acceptConfidence, acceptTolerance, acceptMinSamples, acceptSurface, transmitted, received]

theorem run_fields (ops : List (Op T R)) : ∀ e : Evaluator M T R,
    (run e ops).confidence = lastOr acceptConfidence e.confidence ops ∧
    (run e ops).tolerance = lastOr acceptTolerance e.tolerance ops ∧
    (run e ops).minSamples = lastOr acceptMinSamples e.minSamples ops ∧
    (run e ops).surface = lastOr acceptSurface e.surface ops ∧
    (run e ops).transmission = lastOr transmitted e.transmission ops ∧
    (run e ops).reception = lastOr received e.reception ops ∧
    (run e ops).ownSurface = e.ownSurface ∧
    (run e ops).tx = e.tx ∧ (run e ops).rx = e.rx ∧
    (run e ops).scale = e.scale ∧ (run e ops).tick = e.tick := by
  induction ops with
  | nil => intro e; simp [run, lastOr_nil]
  | cons o os ih =>
    intro e
    obtain ⟨a1, a2, a3, a4, a5, a6, a7, a8, a9, a10, a11⟩ := step_fields e o
    obtain ⟨b1, b2, b3, b4, b5, b6, b7, b8, b9, b10, b11⟩ := ih (step e o).1
    simp only [run, lastOr_cons]
    exact ⟨by rw [b1, a1], by rw [b2, a2], by rw [b3, a3], by rw [b4, a4], by rw [b5, a5], by rw [b6, a6],
      by rw [b7, a7], by rw [b8, a8], by rw [b9, a9], by rw [b10, a10], by rw [b11, a11]⟩

theorem construct_ok {tx rx : M} {c t : ℚ} {m : Int} {sc tk : Nat} {s : Bool} {e : Evaluator M T R}
    (h : construct tx rx c t m sc tk s = .ok e) :
    (0 ≤ c ∧ c ≤ 1 ∧ 0 ≤ t ∧ 2 ≤ m) ∧
    e = { tx := tx
          rx := rx
          confidence := c
          tolerance := t
          minSamples := m
          scale := sc
          tick := tk
          surface := s
          ownSurface := none
          transmission := none
          reception := none } := by
  unfold construct setConfidence setTolerance setMinSamples at h
  by_cases h1 : c < 0 ∨ c > 1
  · simp [h1] at h
  by_cases h2 : t < 0
  · simp [h1, h2] at h
  by_cases h3 : m < 2
  · simp [h1, h2, h3] at h
  simp only [h1, h2, h3, if_false, Except.ok.injEq] at h
  push Not at h1
  exact ⟨⟨h1.1, h1.2, by linarith, by omega⟩, h.symm⟩

/-- An accepted value satisfies what the acceptance demands. -/
theorem lastOr_sat {α β : Type} (f : β → Option α) (P : α → Prop) (hf : ∀ o a, f o = some a → P a)
    (init : α) (hi : P init) (ops : List β) : P (lastOr f init ops) := by
  induction ops generalizing init with
  | nil => exact hi
  | cons o os ih =>
    rw [lastOr_cons]
    apply ih
    cases h : f o with
    | none => simpa using hi
    | some a => simpa using hf o a h

/-! ### C61 -/

/-- C61: an evaluator that could be constructed hands exactly the stopping parameters in force, the last
accepted assignment of each or the constructor's argument, to the result of a simulation, and creating
that result never raises, whatever was assigned and whatever was transmitted and received before. -/
theorem C61_settings {tx rx : M} {c t : ℚ} {m : Int} {sc tk : Nat} {s : Bool} {e : Evaluator M T R}
    (h : construct tx rx c t m sc tk s = .ok e) (ops : List (Op T R)) :
    initializeResult (run e ops) = .ok
      { accuracy := lastOr acceptTolerance t ops
        confidence := lastOr acceptConfidence c ops
        minSamples := lastOr acceptMinSamples m ops
        surface := lastOr acceptSurface s ops } := by
  obtain ⟨⟨hc0, hc1, ht, hm⟩, rfl⟩ := construct_ok h
  obtain ⟨b1, b2, b3, b4, -⟩ := run_fields ops
    ({ tx := tx
       rx := rx
       confidence := c
       tolerance := t
       minSamples := m
       scale := sc
       tick := tk
       surface := s
       ownSurface := none
       transmission := none
       reception := none } : Evaluator M T R)
  unfold initializeResult Result.init
  rw [b1, b2, b3, b4]
  dsimp only
  have p1 : 0 ≤ lastOr (acceptConfidence (T := T) (R := R)) c ops ∧ lastOr (acceptConfidence (T := T) (R := R)) c ops ≤ 1 := by
    refine lastOr_sat _ (fun v : ℚ => 0 ≤ v ∧ v ≤ 1) ?_ _ ⟨hc0, hc1⟩ _
    intro o a ha
    cases o <;> simp [acceptConfidence] at ha
    obtain ⟨h1, rfl⟩ := ha
    exact h1
  have p2 : 0 ≤ lastOr (acceptTolerance (T := T) (R := R)) t ops := by
    refine lastOr_sat _ (fun v : ℚ => 0 ≤ v) ?_ _ ht _
    intro o a ha
    cases o <;> simp [acceptTolerance] at ha
    obtain ⟨h1, rfl⟩ := ha
    exact h1
  have p3 : 2 ≤ lastOr (acceptMinSamples (T := T) (R := R)) m ops := by
    refine lastOr_sat _ (fun v : Int => 2 ≤ v) ?_ _ hm _
    intro o a ha
    cases o <;> simp [acceptMinSamples] at ha
    obtain ⟨h1, rfl⟩ := ha
    exact h1
  rw [if_neg (by push Not; exact ⟨p1.2, p1.1⟩), if_neg (by linarith), if_neg (by omega)]

/-- C61: the constructor accepts exactly confidences between zero and one, non-negative tolerances and at
least two samples; the two remaining parameters are free. -/
theorem C61_construct (tx rx : M) (c t : ℚ) (m : Int) (sc tk : Nat) (s : Bool) :
    (∃ e : Evaluator M T R, construct tx rx c t m sc tk s = .ok e) ↔ 0 ≤ c ∧ c ≤ 1 ∧ 0 ≤ t ∧ 2 ≤ m := by
  constructor
  · rintro ⟨e, h⟩
    exact (construct_ok h).1
  · rintro ⟨h1, h2, h3, h4⟩
    unfold construct setConfidence setTolerance setMinSamples
    dsimp only
    rw [if_neg (by push Not; exact ⟨h1, h2⟩)]
    dsimp only
    rw [if_neg (by linarith)]
    dsimp only
    rw [if_neg (by omega)]
    exact ⟨_, rfl⟩

/-- C61: a refused assignment raises `ValueError` and leaves the evaluator as it was. -/
theorem C61_refused (e : Evaluator M T R) (o : Op T R) (x : PyErr) (h : (step e o).2 = some x) :
    x = .value ∧ (step e o).1 = e := by
  cases o with
  | transmit t => simp [step] at h
  | receive t => simp [step] at h
  | surface t => simp [step] at h
  | confidence v =>
    by_cases hv : v < 0 ∨ v > 1 <;> simp [step, setConfidence, settle, hv] at h ⊢
    exact h.symm
  | tolerance v =>
    by_cases hv : v < 0 <;> simp [step, setTolerance, settle, hv] at h ⊢
    exact h.symm
  | minSamples v =>
    by_cases hv : v < 2 <;> simp [step, setMinSamples, settle, hv] at h ⊢
    exact h.symm

/-- C61: an evaluation compares the newest transmission with the newest reception of its modems, and raises
`RuntimeError` as long as one of them is missing. -/
theorem C61_newest {tx rx : M} {c t : ℚ} {m : Int} {sc tk : Nat} {s : Bool} {e : Evaluator M T R}
    (h : construct tx rx c t m sc tk s = .ok e) (ops : List (Op T R)) :
    fetch (run e ops) =
      match (ops.filterMap fun | .transmit a => some a | _ => none).getLast?,
            (ops.filterMap fun | .receive b => some b | _ => none).getLast? with
      | some a, some b => .ok (a, b)
      | _, _ => .error .runtime := by
  obtain ⟨-, rfl⟩ := construct_ok h
  obtain ⟨-, -, -, -, b5, b6, -⟩ := run_fields ops
    ({ tx := tx
       rx := rx
       confidence := c
       tolerance := t
       minSamples := m
       scale := sc
       tick := tk
       surface := s
       ownSurface := none
       transmission := none
       reception := none } : Evaluator M T R)
  unfold fetch
  rw [b5, b6]
  have e1 : lastOr (transmitted (T := T) (R := R)) none ops =
      (ops.filterMap fun | .transmit a => some a | _ => none).getLast? := by
    unfold lastOr
    have : ops.filterMap (transmitted (T := T) (R := R)) =
        (ops.filterMap fun | .transmit a => some a | _ => none).map some := by
      rw [List.map_filterMap]
      apply List.filterMap_congr
      intro o _
      cases o <;> rfl
    rw [this, List.getLast?_map]
    cases (ops.filterMap fun | .transmit a => some a | _ => none).getLast? <;> rfl
  have e2 : lastOr (received (T := T) (R := R)) none ops =
      (ops.filterMap fun | .receive a => some a | _ => none).getLast? := by
    unfold lastOr
    have : ops.filterMap (received (T := T) (R := R)) =
        (ops.filterMap fun | .receive a => some a | _ => none).map some := by
      rw [List.map_filterMap]
      apply List.filterMap_congr
      intro o _
      cases o <;> rfl
    rw [this, List.getLast?_map]
    cases (ops.filterMap fun | .receive a => some a | _ => none).getLast? <;> rfl
  rw [e1, e2]
  cases (ops.filterMap fun | .transmit a => some a | _ => none).getLast? <;>
    cases (ops.filterMap fun | .receive a => some a | _ => none).getLast? <;> rfl

/-- C61 fails for transmissions and receptions of different drops: drop `1` is transmitted and received,
drop `2` only transmitted; the evaluation then silently compares drop 2 with drop 1. -/
theorem C61_newest_fails : ∃ (e : Evaluator Unit Nat Nat) (ops : List (Op Nat Nat)),
    construct () () 1 0 1024 1 0 true = .ok e ∧
    fetch (run e ops) = .ok (2, 1) := by
  refine ⟨_, [.transmit 1, .receive 1, .transmit 2], rfl, rfl⟩

/-- C61 fails for storing: no evaluator that can be constructed, whatever happened to it, can be
serialised; every attempt raises `AttributeError`. -/
theorem C61_serialize_fails {tx rx : M} {c t : ℚ} {m : Int} {sc tk : Nat} {s : Bool} {e : Evaluator M T R}
    (h : construct tx rx c t m sc tk s = .ok e) (ops : List (Op T R)) :
    serialize (run e ops) = .error .attribute := by
  obtain ⟨-, rfl⟩ := construct_ok h
  obtain ⟨-, -, -, -, -, -, b7, -⟩ := run_fields ops
    ({ tx := tx
       rx := rx
       confidence := c
       tolerance := t
       minSamples := m
       scale := sc
       tick := tk
       surface := s
       ownSurface := none
       transmission := none
       reception := none } : Evaluator M T R)
  unfold serialize
  rw [b7]

/-- C61 fails for restoring: even from a complete record with surface plots disabled an evaluator comes back
with surface plots enabled and with confidence zero, so that it never stops a simulation early. -/
theorem C61_restore_fails (tx rx : M) :
    ∃ e : Evaluator M T R, deserialize ⟨tx, rx, some 0⟩ = .ok e ∧
      e.surface = true ∧ e.confidence = 0 := by
  have hs : boolNum (storedSurface (⟨tx, rx, some 0⟩ : Record M)) = 0 := by
    simp [storedSurface, boolNum]
  obtain ⟨e, he⟩ := (C61_construct (T := T) (R := R) tx rx 0 0 1024 1 0 true).2
    ⟨le_refl _, by norm_num, le_refl _, by norm_num⟩
  refine ⟨e, ?_, ?_⟩
  · unfold deserialize
    rw [hs]
    exact he
  · obtain ⟨-, rfl⟩ := construct_ok he
    exact ⟨rfl, rfl⟩

/-- C61, the part that holds: every record restores without an exception, keeps its modems, and throughput
evaluators keep the flag.  Missing: the flag of all other evaluators, and every stopping parameter. -/
theorem C61_restore_partial (r : Record M) :
    (∃ e : Evaluator M T R, deserialize r = .ok e ∧ e.tx = r.tx ∧ e.rx = r.rx) ∧
    (∃ e : Evaluator M T R, deserializeThroughput r = .ok e ∧ e.tx = r.tx ∧ e.rx = r.rx ∧
      ∀ b : Bool, r.surface = some (if b then 1 else 0) → e.surface = b) := by
  constructor
  · obtain ⟨e, he⟩ := (C61_construct (T := T) (R := R) r.tx r.rx (boolNum (storedSurface r)) 0 1024 1 0 true).2
      ⟨by unfold boolNum; split <;> norm_num, by unfold boolNum; split <;> norm_num, le_refl _, by norm_num⟩
    refine ⟨e, he, ?_⟩
    obtain ⟨-, rfl⟩ := construct_ok he
    exact ⟨rfl, rfl⟩
  · obtain ⟨e, he⟩ := (C61_construct (T := T) (R := R) r.tx r.rx 1 0 1024 1 0 (storedSurface r)).2
      ⟨by norm_num, le_refl _, le_refl _, by norm_num⟩
    refine ⟨e, he, ?_⟩
    obtain ⟨-, rfl⟩ := construct_ok he
    refine ⟨rfl, rfl, ?_⟩
    intro b hb
    show storedSurface r = b
    unfold storedSurface
    rw [hb]
    cases b <;> rfl

/-- The hypotheses are met by an evaluator whose user first assigns refused and then accepted values. -/
example : ∃ e : Evaluator Unit Nat Nat, construct () () (1/2) (1/10) 16 1 0 false = .ok e ∧
    initializeResult (run e [.confidence 2, .tolerance (-1), .transmit 3, .confidence (1/4), .minSamples 1]) =
      .ok ⟨1/10, 1/4, 16, false⟩ ∧
    (step e (.confidence 2)).2 = some .value := by
  obtain ⟨e, he⟩ := (C61_construct (T := Nat) (R := Nat) () () (1/2) (1/10) 16 1 0 false).2
    ⟨by norm_num, by norm_num, by norm_num, by norm_num⟩
  refine ⟨e, he, ?_, ?_⟩
  · rw [C61_settings he]
    norm_num [lastOr_cons, lastOr_nil, acceptTolerance, acceptConfidence, acceptMinSamples, acceptSurface]
  · obtain ⟨-, rfl⟩ := construct_ok he
    norm_num [step, setConfidence, settle]

end Verif.Modem.EvalState
