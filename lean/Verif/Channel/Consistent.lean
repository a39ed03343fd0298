import Mathlib.Analysis.SpecialFunctions.Trigonometric.Arctan
import Mathlib.Analysis.SpecialFunctions.Trigonometric.ArctanDeriv
import Mathlib.Probability.CDF
import Mathlib.Probability.Distributions.Gaussian.Real
import Verif.Channel.Phases
import Verif.Modem.Frame

/-!
# Spatially consistent random variables

Model of `channel/consistent.py`: the layout of variables within a generator, realizations, and the
distributions of the samples (C74).

Random generators are arguments: every number drawn is an arbitrary function of its index. Arrays handed to
variables are flat lists in C order together with the variable's shape.
-/

namespace Verif.Consistent

open Verif.Modem (pySlice sliceBound)

/-! ### Variables and generators -/

/-- A `ConsistentVariable` object: shape and offset. `channel/consistent.py` 24-73. Objects are identified by
their index in the list of all variables. -/
structure Var where
  shape : List Nat
  offset : Int
  deriving DecidableEq, Repr

/-- `size`: `int(np.prod(self.shape))`. `channel/consistent.py` 47, 57-60. -/
def Var.size (v : Var) : Nat := v.shape.prod

/-- `ConsistentVariable.__init__`: a missing shape is a scalar. `channel/consistent.py` 33-48. -/
def Var.new (shape : Option (List Nat)) (offset : Int) : Var := ⟨shape.getD [1], offset⟩

/-- A `ConsistentGenerator`: next offset and the variables added. `channel/consistent.py` 287-297. -/
structure Gen where
  offset : Nat
  vars : List Nat
  deriving DecidableEq, Repr

/-- All objects alive. -/
structure World where
  vars : List Var
  gens : List Gen
  deriving DecidableEq, Repr

/-- What a user does: construct a variable (also by deserialising it, 92-103), construct a generator, add a
variable to a generator, assign an offset. `gaussian`, `uniform` and `boolean` (299-351) are `newVar` without
an offset followed by `add`. -/
inductive Op where
  | newVar (shape : Option (List Nat)) (offset : Int)
  | newGen
  | add (g v : Nat)
  | setOffset (v : Nat) (x : Int)
  deriving DecidableEq, Repr

/-- `add_variable`. `channel/consistent.py` 353-367. `variable in self.__variables` compares identities.
Objects that do not exist cannot be named by a program: nothing happens. -/
def addVariable (w : World) (g v : Nat) : World :=
  match w.gens[g]?, w.vars[v]? with
  | some gen, some var =>
    if v ∈ gen.vars then w
    else
      { vars := w.vars.set v { var with offset := gen.offset }
        gens := w.gens.set g ⟨gen.offset + var.size, gen.vars ++ [v]⟩ }
  | _, _ => w

/-- One statement of a user program. -/
def step (w : World) : Op → World
  | .newVar shape offset => { w with vars := w.vars ++ [Var.new shape offset] }
  | .newGen => { w with gens := w.gens ++ [⟨0, []⟩] }
  | .add g v => addVariable w g v
  | .setOffset v x =>
    match w.vars[v]? with
    | some var => { w with vars := w.vars.set v { var with offset := x } }
    | none => w

/-- A program, from the start. -/
def run (ops : List Op) : World := ops.foldl step ⟨[], []⟩

/-- The number of scalars of a realization. `channel/consistent.py` 422-425. -/
def numScalars (w : World) (gen : Gen) : Nat :=
  gen.vars.foldl (fun n v => n + (((w.vars[v]?).map Var.size).getD 0)) 0

/-! ### Radial velocities -/

/-- `__radial_velocity_cdf`. `channel/consistent.py` 271-285. -/
noncomputable def radialCdf (fr a U : ℝ) : ℝ :=
  2 / Real.pi * Real.arctan (2 * Real.pi * fr / a) -
    4 * a * fr / (4 * Real.pi ^ 2 * fr ^ 2 + a ^ 2) - U

open Classical in
/-- `while cdf(fr_max) < 0: fr_max *= 2`. `channel/consistent.py` 399-400. `fr_max` is an unbounded Python
integer: where the loop does not end over exact numbers, its conversion to a float overflows. -/
noncomputable def upper (a u frMax : ℝ) : Except PyErr ℝ :=
  if h : ∃ n : Nat, ¬ radialCdf (frMax * 2 ^ n) a u < 0 then .ok (frMax * 2 ^ Nat.find h)
  else .error .overflow

open Classical in
/-- `scipy.optimize.bisect(f, 0, fr_max)`, `channel/consistent.py` 403: some root within the interval
(idealised: exact). `ValueError` if the signs at both ends agree. -/
noncomputable def bisect (a u frMax : ℝ) : Except PyErr ℝ :=
  if 0 < radialCdf 0 a u * radialCdf frMax a u then .error .value
  else if h : ∃ x, 0 ≤ x ∧ x ≤ frMax ∧ radialCdf x a u = 0 then .ok h.choose
  else .error .value

/-- The loop over the candidates. `channel/consistent.py` 393-403: `fr_max` carries over. -/
noncomputable def solveLoop (a : ℝ) : List ℝ → ℝ → Except PyErr (List ℝ)
  | [], _ => .ok []
  | u :: us, frMax =>
    match upper a u frMax with
    | .error e => .error e
    | .ok hi =>
      match bisect a u hi with
      | .error e => .error e
      | .ok x =>
        match solveLoop a us hi with
        | .error e => .error e
        | .ok xs => .ok (x :: xs)

/-- `np.linspace(0, 1, 1 + n)[:-1]`. `channel/consistent.py` 389. -/
noncomputable def candidates (n : Nat) : List ℝ := (List.range n).map fun k : Nat => (k : ℝ) / n

/-- `__sample_cdf` without the cache. `channel/consistent.py` 388-403. -/
noncomputable def solveCdf (distance : ℝ) (n : Nat) : Except PyErr (List ℝ) :=
  if distance = 0 then .error .zeroDivision
  else solveLoop (1 / distance) (candidates n) 1

/-- The class-wide cache `__cdf_cache`. `channel/consistent.py` 269. -/
abbrev Cache := List ((ℝ × Nat) × List ℝ)

open Classical in
/-- `__cdf_cache.get(key)`. -/
noncomputable def Cache.get (c : Cache) (k : ℝ × Nat) : Option (List ℝ) :=
  (c.find? fun e => e.1 = k).map (·.2)

/-- `__sample_cdf`. `channel/consistent.py` 369-408. The cache afterwards and the outcome. -/
noncomputable def sampleCdf (c : Cache) (distance : ℝ) (n : Nat) : Cache × Except PyErr (List ℝ) :=
  match c.get (distance, n) with
  | some v => (c, .ok v)
  | none =>
    match solveCdf distance n with
    | .error e => (c, .error e)
    | .ok v => (((distance, n), v) :: c, .ok v)

/-! ### Realizations -/

/-- Realizations: `StaticConsistentRealization` (236-247) and `DualConsistentRealization` (159-173). The
latter with the dimensions of its array of frequencies, `freq scalar sinusoid end coordinate`. -/
inductive Realization where
  | static (scalars : List ℝ)
  | dual (scalars sinusoids : Nat) (freq : Nat → Nat → Fin 2 → Fin 3 → ℝ) (phase : Nat → Nat → ℝ)

/-- Numbers drawn by `realize`. -/
structure Draws where
  normal : Nat → ℝ
  choice : Nat → Nat → Fin 2 → Nat
  azimuth : Nat → Nat → Fin 2 → ℝ
  zenith : Nat → Nat → Fin 2 → ℝ
  phase : Nat → Nat → ℝ

/-- Unit vector of azimuth and zenith. `channel/consistent.py` 446-454. -/
noncomputable def direction (azimuth zenith : ℝ) : Fin 3 → ℝ :=
  ![Real.cos azimuth * Real.sin zenith, Real.sin azimuth * Real.sin zenith, Real.cos zenith]

/-- `realize`. `channel/consistent.py` 410-459. `none` is the infinite distance. `rng.choice` picks one of the
1000 candidates, `choice` being the index it draws. -/
noncomputable def realize (c : Cache) (num : Nat) (distance : Option ℝ) (sinusoids : Nat) (d : Draws) :
    Cache × Except PyErr Realization :=
  match distance with
  | none => (c, .ok (.static ((List.range num).map d.normal)))
  | some r =>
    match sampleCdf c r 1000 with
    | (c', .error e) => (c', .error e)
    | (c', .ok v) =>
      (c', .ok (.dual num sinusoids
        (fun k n e i => 2 * Real.pi * v.getD (d.choice k n e) 0 *
          direction (d.azimuth k n e) (Real.arccos (1 - d.zenith k n e)) i)
        d.phase))

/-- Scalar product of three coordinates (`np.tensordot(position, frequencies, (0, 0))`). -/
def dot (x y : Fin 3 → ℝ) : ℝ := ∑ i, x i * y i

/-- `sample` of a realization at two positions. `channel/consistent.py` 187-200, 249-251. Without sinusoids
`2 / 0` is an integer division by zero. -/
noncomputable def Realization.sample (r : Realization) (a b : Fin 3 → ℝ) : Except PyErr (List ℝ) :=
  match r with
  | .static s => .ok s
  | .dual num N freq phase =>
    if N = 0 then .error .zeroDivision
    else .ok ((List.range num).map fun k =>
      Real.sqrt (2 / N) *
        ∑ n ∈ Finset.range N, Real.cos (dot a (freq k n 0) + dot b (freq k n 1) + phase k n))

/-- `ConsistentVariable.sample`: slice and reshape. `channel/consistent.py` 75-90, 154-156, 231-233. -/
def Var.sample {α : Type} (v : Var) (scalars : List α) : Except PyErr (List α) :=
  let xs := pySlice scalars v.offset (v.offset + v.size)
  if xs.length = v.size then .ok xs else .error .value

/-- `ConsistentGaussian.sample`. `channel/consistent.py` 462-472. -/
noncomputable def Var.gaussian (v : Var) (scalars : List ℝ) (mean std : ℝ) : Except PyErr (List ℝ) :=
  (v.sample scalars).map (List.map fun x => mean + std * x)

/-- `norm.cdf`: the distribution function of the standard normal law. -/
noncomputable def normCdf (x : ℝ) : ℝ := ProbabilityTheory.cdf (ProbabilityTheory.gaussianReal 0 1) x

/-- `ConsistentUniform.sample`. `channel/consistent.py` 475-485. -/
noncomputable def Var.uniform (v : Var) (scalars : List ℝ) : Except PyErr (List ℝ) :=
  (v.sample scalars).map (List.map normCdf)

open Classical in
/-- `ConsistentBoolean.sample`. `channel/consistent.py` 488-498. -/
noncomputable def Var.boolean (v : Var) (scalars : List ℝ) : Except PyErr (List Bool) :=
  (v.sample scalars).map (List.map fun x => decide (x > 0))

/-- `serialize` of a variable. `channel/consistent.py` 92-95. -/
def Var.serialize (v : Var) : List Nat × Int := (v.shape, v.offset)

/-- `Deserialize` of a variable. `channel/consistent.py` 97-103. -/
def Var.deserialize (r : List Nat × Int) : Var := Var.new (some r.1) r.2

end Verif.Consistent
