import Verif.Mc.ActorProps
import Mathlib.Data.Rat.Floor
import Mathlib.Tactic.Linarith

/-!
# C44: drops along trajectories

Model of the stage arguments computed by `Simulation.run`
(`hermespy/simulation/simulation.py` 408-432) and of their check in the actor constructor
(`hermespy/core/pymonte/actors.py` 289-293).
-/

namespace Verif.Mc

/-- `SimulationActor.stage_identifiers()` (`simulation.py` 226-235). -/
def simulationStages : List String :=
  ["realize_channels", "sample_states", "transmit_operators", "generate_outputs", "propagate",
    "process_inputs", "receive_operators"]

/-- The timestamps announced to the user (`simulation.py` 416-421).  `none` is an infinite
interval, for which `np.arange(0, t, inf)` is `[0]`; otherwise `ceil(t / interval)` points. -/
def dropTimestamps (maxTimestamp : ℚ) (interval : Option ℚ) : List ℚ :=
  if maxTimestamp > 0 then
    match interval with
    | none => [0]
    | some i => (List.range ⌈maxTimestamp / i⌉.toNat).map fun k : ℕ => (k : ℚ) * i
  else [0]

/-- The stage arguments computed at `simulation.py` 422-424 (`timestamps[-1] > 0`; an empty array
raises `IndexError`). -/
def computedStageArguments (ts : List ℚ) : Except PyErr (List (String × List ℚ)) :=
  match ts.getLast? with
  | none => .error .index
  | some t => .ok (if t > 0 then [("sample_trajectories", ts)] else [])

/-- The check of stage arguments in the actor constructor (`actors.py` 290-293). -/
def checkStageArguments (ids : List String) (args : List (String × List ℚ)) : Except PyErr Unit :=
  if args.all fun a => decide (a.1 ∈ ids) then .ok () else .error .value

/-- The stage arguments that reach the actors: `self.simulate(SimulationActor)`
(`simulation.py` 432) passes none, so every stage runs once with default arguments
(`actors.py` 290, 332). -/
def simulationArgs : Nat → List Unit := fun _ => [()]

/-- A simulation actor: arbitrary scenario behaviour behind the seven stages. -/
def simulationActor {X Art : Type} (grid : List GDim) (configure : Nat → Nat → X → Except PyErr X)
    (exec : Nat → Unit → X → Except PyErr X) (evaluate : X → Except PyErr Art) :
    Actor X Unit Art where
  ids := simulationStages
  grid := grid
  args := simulationArgs
  configure := configure
  exec := exec
  evaluate := evaluate

/-- **C44 fails.** Whatever the trajectories and the drop interval, a sample of the simulation
contains exactly one drop (one artifact tuple) ... -/
theorem C44_single_drop_per_sample_fails {X Art : Type} (grid : List GDim)
    (configure : Nat → Nat → X → Except PyErr X) (exec : Nat → Unit → X → Except PyErr X)
    (evaluate : X → Except PyErr Art) (hex : ∀ k a x, ∃ x', exec k a x = .ok x')
    (hev : ∀ x, ∃ a, evaluate x = .ok a) (x : X) :
    ∃ x' a, (simulationActor grid configure exec evaluate).executeStages
      simulationStages.length 0 x = .ok (x', [a]) := by
  obtain ⟨x', arts, h1, h2⟩ := C45_full_run_covers_all_arguments
    (simulationActor grid configure exec evaluate) hex hev simulationStages.length 0 x
  have : arts.length = 1 := by
    rw [h2]
    simp [simulationActor, simulationArgs]
  match arts, this with
  | [a], _ => exact ⟨x', a, h1⟩

/-- C44: the timestamps announced are the multiples of the interval before the last timestamp of the trajectories, in order. -/
theorem C44_timestamps (tmax i : ℚ) (ht : 0 < tmax) (hi : 0 < i) :
    (∀ t, t ∈ dropTimestamps tmax (some i) ↔ ∃ k : ℕ, t = k * i ∧ t < tmax) ∧ (dropTimestamps tmax (some i)).Pairwise (· < ·) := by
  unfold dropTimestamps
  rw [if_pos ht]
  dsimp only
  constructor
  · intro t
    rw [List.mem_map]
    have hlt : ∀ k : ℕ, k ∈ List.range ⌈tmax / i⌉.toNat ↔ (k : ℚ) * i < tmax := by
      intro k
      rw [List.mem_range, Int.lt_toNat, Int.lt_ceil, Int.cast_natCast, lt_div_iff₀ hi]
    constructor
    · rintro ⟨k, hk, rfl⟩
      exact ⟨k, rfl, (hlt k).mp hk⟩
    · rintro ⟨k, rfl, hk⟩
      exact ⟨k, (hlt k).mpr hk, rfl⟩
  · rw [List.pairwise_map]
    refine List.pairwise_lt_range.imp fun {a b} h => ?_
    have : (a : ℚ) < b := by exact_mod_cast h
    exact mul_lt_mul_of_pos_right this hi

/-- C44: scenarios at rest, and scenarios without an interval, announce a single drop at the beginning, and no arguments of stages; all others announce
arguments if the interval ends before the trajectories do. -/
theorem C44_static (tmax : ℚ) (interval : Option ℚ) :
    (tmax ≤ 0 ∨ interval = none → dropTimestamps tmax interval = [0] ∧ computedStageArguments (dropTimestamps tmax interval) = .ok []) ∧
    (∀ i, 0 < i → i < tmax → interval = some i →
      computedStageArguments (dropTimestamps tmax interval) = .ok [("sample_trajectories", dropTimestamps tmax interval)]) := by
  constructor
  · intro h
    have hd : dropTimestamps tmax interval = [0] := by
      unfold dropTimestamps
      rcases h with h | rfl
      · rw [if_neg (by linarith)]
      · split <;> rfl
    rw [hd]
    refine ⟨rfl, ?_⟩
    simp [computedStageArguments]
  · rintro i hi hlt rfl
    obtain ⟨hm, hp⟩ := C44_timestamps tmax i (by linarith) hi
    have h1 : i ∈ dropTimestamps tmax (some i) := (hm i).mpr ⟨1, by simp, hlt⟩
    unfold computedStageArguments
    cases hl : (dropTimestamps tmax (some i)).getLast? with
    | none =>
      rw [List.getLast?_eq_none_iff] at hl
      rw [hl] at h1
      simp at h1
    | some t =>
      dsimp only
      have hle : i ≤ t := by
        obtain ⟨ys, hys⟩ := List.getLast?_eq_some_iff.mp hl
        rw [hys] at h1 hp
        rcases List.mem_append.mp h1 with h | h
        · exact (((List.pairwise_append.mp hp).2.2 i h t (by simp))).le
        · exact (List.mem_singleton.mp h).le
      rw [if_pos (by linarith)]

example : ∃ ts, dropTimestamps (5 / 2) (some 1) = ts ∧ (2 : ℚ) ∈ ts ∧ (3 : ℚ) ∉ ts := by
  obtain ⟨h, _⟩ := C44_timestamps (5 / 2) 1 (by norm_num) (by norm_num)
  refine ⟨_, rfl, (h 2).mpr ⟨2, by norm_num, by norm_num⟩, fun h3 => ?_⟩
  obtain ⟨_, _, h4⟩ := (h 3).mp h3
  norm_num at h4

/-- ... although two drops are announced, e.g., for trajectories of two seconds and an interval
of one second; passing the computed arguments on would be rejected by the actor constructor,
because there is no stage of that name. -/
theorem C44_announced_drops_fails :
    (dropTimestamps 2 (some 1)).length = 2 ∧
    computedStageArguments (dropTimestamps 2 (some 1))
      = .ok [("sample_trajectories", dropTimestamps 2 (some 1))] ∧
    ∀ ts, checkStageArguments simulationStages [("sample_trajectories", ts)] = .error .value := by
  have h : dropTimestamps 2 (some 1) = [0, 1] := by
    have hc : ⌈(2 : ℚ) / 1⌉.toNat = 2 := by norm_num; rfl
    simp only [dropTimestamps, hc]
    rw [if_pos (by norm_num)]
    simp [List.range_succ]
  refine ⟨by rw [h]; rfl, ?_, ?_⟩
  · rw [h]
    simp [computedStageArguments]
  · intro ts
    simp [checkStageArguments, simulationStages]

end Verif.Mc
