import Verif.Mc.Queue
import Std.Data.String.ToNat
import Mathlib.Data.List.InsertIdx
import Mathlib.Tactic.NormNum
import Mathlib.Order.Interval.Finset.Nat

/-!
# Presentation of evaluation results

Curves, surfaces, tables and files made from evaluation results: `core/pymonte/evaluation.py`, `core/pymonte/scalar.py`,
`core/pymonte/grid.py` (`SamplePoint`) and `MonteCarloResult` of `core/pymonte/monte_carlo.py`.  Results have one value per section of the
grid, as those of scalar evaluators and of root mean square errors; the values are of any type.  Axis labels, scales and ticks are
not modelled.
-/

namespace Verif.Present

open Verif (PyErr)
open Verif.Mc (ndindex)

/-- Value of a sample point: a number, a value whose class has its own `__str__`, possibly convertible to a float, or an instance of
another class. -/
inductive Val
  | flt (x : ℚ)
  | int (z : ℤ)
  | flag (b : Bool)
  | own (s : String) (number : Option ℚ)
  | other (cls : String)
  deriving DecidableEq

/-- `SamplePoint`, `core/pymonte/grid.py` 153-167. -/
structure Point where
  value : Val
  title : Option String
  deriving DecidableEq

/-- `SamplePoint.title`, `core/pymonte/grid.py` 175-191.  The classes `float`, `int` and `bool` inherit `__str__` from `object`; `g2` is
the format `.2g`. -/
def Point.label (g2 : ℚ → String) (p : Point) : String :=
  match p.title with
  | some t => t
  | none =>
    match p.value with
    | .own s _ => s
    | .flt x => g2 x
    | .int z => toString z
    | .flag b => if b then "True" else "False"
    | .other c => c

/-- `GridDimensionInfo`, `core/pymonte/grid.py` 194-243. -/
structure Dim where
  title : String
  points : List Point
  deriving DecidableEq

/-- `[d.num_sample_points for d in grid]`. -/
def shape (g : List Dim) : List ℕ := g.map fun d => d.points.length

/-- A numpy array. -/
structure Arr (α : Type) where
  shape : List ℕ
  val : List ℕ → α

/-- `array[tuple(coordinates)]` with one non-negative index per axis. -/
def Arr.get {α : Type} (a : Arr α) (c : List ℕ) : Except PyErr α :=
  if c.length = a.shape.length ∧ (List.zipWith (fun i n => decide (i < n)) c a.shape).all id then .ok (a.val c) else .error .index

/-- `np.moveaxis(array, b, 0)`: the first index of the result is the index of axis `b`. -/
def Arr.moved {α : Type} (a : Arr α) (b : ℕ) : Arr α :=
  ⟨a.shape.getD b 0 :: a.shape.eraseIdx b, fun c => a.val (c.tail.insertIdx b (c.headD 0))⟩

/-- `array[(..., *section)]` with one axis more than indices. -/
def Arr.curve {α : Type} (a : Arr α) (s : List ℕ) : Except PyErr (List α) :=
  (List.range (a.shape.headD 0)).mapM fun (j : ℕ) => a.get (j :: s)

/-- `grid.pop(base_dimension_index)`, `core/pymonte/evaluation.py` 255, whose index may be negative. -/
def axis (n : ℕ) (b : ℤ) : Except PyErr ℕ :=
  if -(n : ℤ) ≤ b ∧ b < n then .ok (if b < 0 then b + n else b).toNat else .error .index

/-- A line of a plot. -/
structure Line (α : Type) where
  label : Option String
  x : List Val
  y : List α

/-- The label of a line, `core/pymonte/evaluation.py` 301-308.  Cutting the last two characters off terms followed by a separator is
written as joining the terms. -/
def label (g2 : ℚ → String) (g : List Dim) (s : List ℕ) : Option String :=
  if s = [] then none
  else some (String.intercalate ", " (List.zipWith (fun (d : Dim) (v : ℕ) =>
    d.title ++ " = " ++ ((d.points[v]?).map (Point.label g2)).getD "") g s))

/-- `_prepare_multidim_visualization`, `core/pymonte/evaluation.py` 272-320.  A result without evaluator raises at line 283. -/
def prepare {α : Type} [Zero α] (g2 : ℚ → String) (evaluator : Bool) (g : List Dim) : Except PyErr (List (Line α)) :=
  match g with
  | [] => .ok []
  | d :: ds =>
    if evaluator then
      .ok ((ndindex (shape ds)).map fun s => ⟨label g2 ds s, d.points.map Point.value, d.points.map fun _ => 0⟩)
    else .error .attribute

/-- The loop of `_update_multidim_visualization`, `core/pymonte/evaluation.py` 338-352: the vertical positions of each line are replaced. -/
def assign {α : Type} (a : Arr α) : List (List ℕ) → List (Line α) → Except PyErr (List (Line α))
  | s :: ss, l :: ls =>
    match a.curve s with
    | .error e => .error e
    | .ok y =>
      match assign a ss ls with
      | .error e => .error e
      | .ok r => .ok ({ l with y := y } :: r)
  | _, ls => .ok ls

/-- `_update_visualization`, `core/pymonte/evaluation.py` 248-258, and `_update_multidim_visualization`, lines 322-355. -/
def update {α : Type} (b : ℤ) (g : List Dim) (a : Arr α) (ls : List (Line α)) : Except PyErr (List (Line α)) :=
  match g with
  | [] => .ok ls
  | _ :: ds =>
    match axis g.length b with
    | .error e => .error e
    | .ok k => assign (a.moved k) (ndindex (shape ds)) ls

/-- The lines made by `visualize`, `core/visualize.py` 336-354, with `core/pymonte/evaluation.py` 237-258 or with
`core/pymonte/scalar.py` 151-180 of a grid not drawn as a surface. -/
def plot {α : Type} [Zero α] (g2 : ℚ → String) (evaluator : Bool) (b : ℤ) (g : List Dim) (a : Arr α) : Except PyErr (List (Line α)) :=
  match prepare g2 evaluator g with
  | .error e => .error e
  | .ok ls => update b g a ls

/-- The value of a sample point in an array converted by `astype(float)`.  Simplification: values which do not convert raise a type
error; strings would raise a value error. -/
def Val.number : Val → Except PyErr ℚ
  | .flt x => .ok x
  | .int z => .ok z
  | .flag b => .ok (if b then 1 else 0)
  | .own _ (some q) => .ok q
  | _ => .error .type

/-- Length of two broadcast axes. -/
def broadcast (m n : ℕ) : Except PyErr ℕ :=
  if m = n then .ok m else if m = 1 then .ok n else if n = 1 then .ok m else .error .value

/-- The corners of a surface, `_update_surface_visualization`, `core/pymonte/scalar.py` 206-215, after `moveaxis`, line 173: rows along
the first dimension of the grid, columns along the second. `plot_surface` broadcasts its three arguments. -/
def surface {α : Type} (b : ℤ) (d e : Dim) (a : Arr α) : Except PyErr (List (List (ℚ × ℚ × α))) :=
  match axis 2 b with
  | .error r => .error r
  | .ok k =>
    match d.points.mapM fun p => p.value.number, e.points.mapM fun p => p.value.number with
    | .ok xs, .ok ys =>
      match broadcast xs.length ((a.moved k).shape.getD 0 0), broadcast ys.length ((a.moved k).shape.getD 1 0) with
      | .ok m, .ok n => .ok ((List.range m).map fun (i : ℕ) => (List.range n).map fun (j : ℕ) =>
          (xs.getD (if xs.length = 1 then 0 else i) 0, ys.getD (if ys.length = 1 then 0 else j) 0,
            (a.moved k).val [if (a.moved k).shape.getD 0 0 = 1 then 0 else i, if (a.moved k).shape.getD 1 0 = 1 then 0 else j]))
      | .error r, _ => .error r
      | _, .error r => .error r
    | .error r, _ => .error r
    | _, .error r => .error r

/-- An evaluation result: the evaluator, if known, and whether it shows decibels, and the array of `to_array`. -/
structure Res (α : Type) where
  evaluator : Option Bool
  arr : Arr α

/-- `to_str`, `core/pymonte/evaluation.py` 204-224, of a result with a number per section, with `__result_to_str`, lines 164-178;
`fmt` writes a number, in decibels or not. -/
def Res.toStr {α : Type} (fmt : Bool → α → String) (r : Res α) (c : List ℕ) : Except PyErr String :=
  match r.arr.get c with
  | .error e => .error e
  | .ok v =>
    match r.evaluator with
    | none => .error .attribute
    | some db => .ok (fmt db v)

/-- The titles of the sample points of a section. -/
def titles (g2 : ℚ → String) (g : List Dim) (c : List ℕ) : List String :=
  List.zipWith (fun (v : ℕ) (d : Dim) => ((d.points[v]?).map (Point.label g2)).getD "") c g

/-- `MonteCarloResult.print`, `core/pymonte/monte_carlo.py` 108-141: the rows of the table. -/
def printAll {α : Type} (g2 : ℚ → String) (fmt : Bool → α → String) (g : List Dim) (rs : List (Res α)) :
    Except PyErr (List (List String)) :=
  (ndindex (shape g)).mapM fun c => (rs.mapM fun (r : Res α) => r.toStr fmt c).map fun l => titles g2 g c ++ l

/-- `EvaluationResult.print`, `core/pymonte/evaluation.py` 180-202: the rows of the table.  The columns computed in the loop are not
added to the table. -/
def printOne {α : Type} (fmt : Bool → α → String) (g : List Dim) (r : Res α) : Except PyErr (List (List String)) :=
  match (ndindex (shape g)).mapM fun c => r.toStr fmt c with
  | .error e => .error e
  | .ok _ => .ok []

/-- Values of the dictionary saved. -/
inductive Entry (α : Type)
  | names (l : List String)
  | time (t : ℚ)
  | data (a : Arr α)
  | points (l : List Point)

/-- `dict[key] = value`. -/
def put {α : Type} (d : List (String × Entry α)) (k : String) (v : Entry α) : List (String × Entry α) := (k, v) :: d.filter fun e => e.1 ≠ k

/-- `dict[key]`. -/
def find {α : Type} (d : List (String × Entry α)) (k : String) : Option (Entry α) := (d.find? fun e => e.1 = k).map Prod.snd

/-- The key `f"result_{r}"`. -/
def key (r : ℕ) : String := "result_" ++ Nat.repr r

/-- `MonteCarloResult`, `core/pymonte/monte_carlo.py` 44-66. -/
structure Result (α : Type) where
  grid : List Dim
  evaluators : List String
  results : List (Res α)
  time : ℚ

/-- The loop of lines 95-96. -/
def putResults {α : Type} : ℕ → List (Res α) → List (String × Entry α) → List (String × Entry α)
  | _, [], d => d
  | r, x :: xs, d => putResults (r + 1) xs (put d (key r) (.data x.arr))

/-- The loop of lines 102-103. -/
def putDims {α : Type} : List Dim → List (String × Entry α) → List (String × Entry α)
  | [], d => d
  | x :: xs, d => putDims xs (put d x.title (.points x.points))

/-- `save_to_matlab`, `core/pymonte/monte_carlo.py` 81-106: the dictionary given to `savemat`. -/
def Result.dict {α : Type} (m : Result α) : List (String × Entry α) :=
  putDims m.grid (putResults 0 m.results (putResults 0 m.results
    [("dimensions", .names (m.grid.map Dim.title)), ("evaluators", .names m.evaluators), ("performance_time", .time m.time)]))

/-- The result returned by `simulate`, `core/pymonte/monte_carlo.py` 477-483, for the times of lines 291 and 477,
and the time printed, lines 490-493. -/
def finish {α : Type} (g : List Dim) (evaluators : List String) (rs : List (Res α)) (start stop : ℚ) : Result α × ℚ :=
  (⟨g, evaluators, rs, 0⟩, stop - start)

/-- `num_pages`, `core/pymonte/monte_carlo.py` 393-394. -/
def numPages (sections : ℕ) : ℕ := sections / 8 + 1

/-- `entries_per_page`, `core/pymonte/monte_carlo.py` 395. -/
def perPage (sections : ℕ) : ℕ := sections / numPages sections + 1

/-- The sections shown after the given number of refreshes, `core/pymonte/monte_carlo.py` 401-402 and 431-439. -/
def shown (sections refresh : ℕ) : List ℕ :=
  (List.range sections).filter fun s =>
    !(decide (s < refresh % numPages sections * perPage sections) || decide ((refresh % numPages sections + 1) * perPage sections ≤ s))

/-! ### Lemmas -/

theorem mapM_ok {α β : Type} (f : α → Except PyErr β) (h : α → β) (l : List α) (hf : ∀ x ∈ l, f x = .ok (h x)) :
    l.mapM f = .ok (l.map h) := by
  induction l with
  | nil => rfl
  | cons x xs ih =>
    rw [List.mapM_cons, hf x (by simp), ih fun y hy => hf y (by simp [hy])]
    rfl

theorem mapM_error {α β : Type} (f : α → Except PyErr β) (e : PyErr) (l : List α)
    (he : ∀ x ∈ l, ∀ r, f x = .error r → r = e) (x : α) (hx : x ∈ l) (hf : f x = .error e) : l.mapM f = .error e := by
  induction l with
  | nil => simp at hx
  | cons y ys ih =>
    rw [List.mapM_cons]
    cases hy : f y with
    | error r => rw [he y (by simp) r hy]; rfl
    | ok v =>
      rcases List.mem_cons.1 hx with rfl | hx
      · rw [hf] at hy; cases hy
      · rw [ih (fun z hz => he z (by simp [hz])) hx]; rfl

theorem zip_all (c n : List ℕ) (h : List.Forall₂ (· < ·) c n) :
    (List.zipWith (fun i n => decide (i < n)) c n).all id = true := by
  induction h with
  | nil => rfl
  | cons h _ ih => simpa [h] using ih

theorem get_ok {α : Type} (a : Arr α) (c : List ℕ) (h : List.Forall₂ (· < ·) c a.shape) : a.get c = .ok (a.val c) := by
  rw [Arr.get, if_pos ⟨h.length_eq, zip_all c _ h⟩]

theorem get_error {α : Type} (a : Arr α) (c : List ℕ) (r : PyErr) (h : a.get c = .error r) : r = .index := by
  unfold Arr.get at h
  split at h <;> cases h
  rfl

/-- Sections of a grid: one index below the number of sample points for each dimension. -/
theorem mem_sections (n s : List ℕ) : s ∈ ndindex n ↔ List.Forall₂ (· < ·) s n := by
  rw [Verif.Mc.mem_ndindex]
  rfl

theorem curve_ok {α : Type} (a : Arr α) (n : ℕ) (ns s : List ℕ) (hs : a.shape = n :: ns) (h : List.Forall₂ (· < ·) s ns) :
    a.curve s = .ok ((List.range n).map fun (j : ℕ) => a.val (j :: s)) := by
  unfold Arr.curve
  rw [hs]
  refine mapM_ok _ (fun j => a.val (j :: s)) _ fun j hj => get_ok a _ ?_
  rw [hs]
  exact .cons (List.mem_range.1 hj) h

theorem assign_ok {α : Type} (a : Arr α) (n : ℕ) (ns : List ℕ) (hs : a.shape = n :: ns) (f : List ℕ → Line α) (ss : List (List ℕ))
    (h : ∀ s ∈ ss, List.Forall₂ (· < ·) s ns) :
    assign a ss (ss.map f) = .ok (ss.map fun s => { f s with y := (List.range n).map fun (j : ℕ) => a.val (j :: s) }) := by
  induction ss with
  | nil => rfl
  | cons s ss ih =>
    simp only [List.map_cons, assign]
    rw [curve_ok a n ns s hs (h s (by simp)), ih fun t ht => h t (by simp [ht])]

theorem axis_zero (n : ℕ) (hn : 0 < n) (b : ℤ) (hb : b = 0 ∨ b = -(n : ℤ)) : axis n b = .ok 0 := by
  unfold axis
  rcases hb with rfl | rfl
  · rw [if_pos ⟨by omega, by omega⟩]; rfl
  · rw [if_pos ⟨by omega, by omega⟩, if_pos (by omega)]
    simp

theorem moved_zero {α : Type} (a : Arr α) (n : ℕ) (ns : List ℕ) (hs : a.shape = n :: ns) : (a.moved 0).shape = n :: ns := by
  simp [Arr.moved, hs]

/-! ### Curves -/

/-- C123: the curves of a result whose base dimension is the first: one for each section of the other dimensions, labelled with it,
showing above each sample point of the first dimension the result of the section. -/
theorem C123_curves_partial {α : Type} [Zero α] (g2 : ℚ → String) (b : ℤ) (d : Dim) (ds : List Dim) (a : Arr α)
    (hs : a.shape = shape (d :: ds)) (hb : b = 0 ∨ b = -((d :: ds).length : ℤ)) :
    plot g2 true b (d :: ds) a = .ok ((ndindex (shape ds)).map fun s =>
      ⟨label g2 ds s, d.points.map Point.value, (List.range d.points.length).map fun (j : ℕ) => a.val (j :: s)⟩) := by
  have hm : (a.moved 0).shape = d.points.length :: shape ds := moved_zero a _ _ (by rw [hs]; rfl)
  show update b (d :: ds) a _ = _
  unfold update
  simp only
  rw [axis_zero _ (by simp) b hb]
  simp only
  rw [assign_ok (a.moved 0) _ _ hm _ _ fun s h => (mem_sections _ s).1 h]
  rfl

/-- C123: every section of the grid is in exactly one curve: the curves are as many as sections of the other dimensions, and a section
is that of the curve with its remaining coordinates at the point of its first. -/
theorem C123_sections_partial {α : Type} [Zero α] (g2 : ℚ → String) (b : ℤ) (d : Dim) (ds : List Dim) (a : Arr α)
    (hs : a.shape = shape (d :: ds)) (hb : b = 0 ∨ b = -((d :: ds).length : ℤ)) :
    ∃ ls, plot g2 true b (d :: ds) a = .ok ls ∧ ls.length = (shape ds).prod ∧
      (∀ l ∈ ls, l.x.length = d.points.length ∧ l.y.length = d.points.length) ∧
      ∀ c, List.Forall₂ (· < ·) c (shape (d :: ds)) → ∃ (i : ℕ) (l : Line α), ls[i]? = some l ∧ l.label = label g2 ds c.tail ∧
        l.x[c.headD 0]? = (d.points[c.headD 0]?).map Point.value ∧ l.y[c.headD 0]? = some (a.val c) ∧
        ∀ c', List.Forall₂ (· < ·) c' (shape (d :: ds)) → (ndindex (shape ds))[i]? = some c'.tail → c'.headD 0 = c.headD 0 → c' = c := by
  refine ⟨_, C123_curves_partial g2 b d ds a hs hb, by simp [Verif.Mc.length_ndindex], ?_, ?_⟩
  · intro l hl
    obtain ⟨s, -, rfl⟩ := List.mem_map.1 hl
    simp
  · intro c hc
    cases hc with
    | @cons j n s ns hj hs' =>
      have hmem : s ∈ ndindex (shape ds) := (mem_sections _ s).2 hs'
      obtain ⟨i, hi⟩ := List.getElem?_of_mem hmem
      refine ⟨i, _, by rw [List.getElem?_map, hi]; rfl, rfl, by simp, ?_, ?_⟩
      · have hj' : j < d.points.length := hj
        simp [hj']
      · intro c' hc' ht hh
        rw [hi] at ht
        cases hc' with
        | cons _ _ =>
          simp only [List.tail_cons, Option.some.injEq, List.headD_cons] at ht hh
          rw [ht, hh]

/-- C123: a plot updated later shows the later results, whatever it showed before. -/
theorem C123_refreshed {α : Type} [Zero α] (g2 : ℚ → String) (b : ℤ) (g : List Dim) (a a' : Arr α) (ls : List (Line α))
    (h : plot g2 true b g a = .ok ls) : update b g a' ls = plot g2 true b g a' := by
  have key : ∀ (k k' : Arr α) (ss : List (List ℕ)) (l r : List (Line α)), assign k ss l = .ok r → assign k' ss r = assign k' ss l := by
    intro k k' ss
    induction ss with
    | nil => intro l r h; simp only [assign, Except.ok.injEq] at h; rw [h]
    | cons s ss ih =>
      intro l r h
      cases l with
      | nil => simp only [assign, Except.ok.injEq] at h; rw [h]
      | cons x xs =>
        simp only [assign] at h
        cases hc : k.curve s with
        | error e => rw [hc] at h; cases h
        | ok y =>
          rw [hc] at h
          cases hr : assign k ss xs with
          | error e => rw [hr] at h; cases h
          | ok q =>
            rw [hr] at h
            simp only [Except.ok.injEq] at h
            subst h
            simp only [assign]
            rw [ih xs q hr]
  cases g with
  | nil => cases h; rfl
  | cons d ds =>
    unfold plot at h ⊢
    simp only [prepare, if_true] at h ⊢
    unfold update at h ⊢
    simp only at h ⊢
    cases hk : axis (d :: ds).length b with
    | error e => rfl
    | ok k =>
      rw [hk] at h
      exact key _ _ _ _ _ h

/-- C123 does not hold: with the second of two dimensions as base, the curve labelled with sample point `k` of the second dimension shows
above point `j` of the first the result of section `(k, j)`. -/
theorem C123_curves_fails {α : Type} [Zero α] (g2 : ℚ → String) (d e : Dim) (a : Arr α) (n : ℕ) (_hd : d.points.length = n)
    (he : e.points.length = n) (hs : a.shape = [n, n]) (j k : ℕ) (hj : j < n) (hk : k < n) (hne : a.val [j, k] ≠ a.val [k, j]) :
    ∃ ls l, plot g2 true 1 [d, e] a = .ok ls ∧ ls[k]? = some l ∧ l.label = label g2 [e] [k] ∧ l.y[j]? = some (a.val [k, j]) ∧
      l.y[j]? ≠ some (a.val [j, k]) := by
  have hm : (a.moved 1).shape = n :: [n] := by simp [Arr.moved, hs]
  have hp : plot g2 true 1 [d, e] a = .ok ((ndindex [n]).map fun s =>
      ⟨label g2 [e] s, d.points.map Point.value, (List.range n).map fun (j : ℕ) => (a.moved 1).val (j :: s)⟩) := by
    show update 1 [d, e] a _ = _
    unfold update
    simp only
    have h1 : axis [d, e].length 1 = .ok 1 := rfl
    rw [h1]
    simp only
    have hsh : shape [e] = [n] := by simp [shape, he]
    rw [hsh, assign_ok (a.moved 1) n [n] hm _ _ fun s h => (mem_sections _ s).1 h]
  have hn : (ndindex [n])[k]? = some [k] := by
    have : ndindex [n] = (List.range n).map fun (i : ℕ) => [i] := by simp [ndindex, ← List.map_eq_flatMap]
    rw [this]
    simp [hk]
  refine ⟨_, _, hp, by rw [List.getElem?_map, hn]; rfl, rfl, ?_, ?_⟩
  · simp [hj, Arr.moved]
  · simpa [hj, Arr.moved] using hne.symm

/-- C123 does not hold: with the second of two dimensions as base and more sample points in it than in the first, plotting raises. -/
theorem C123_raises_fails {α : Type} [Zero α] (g2 : ℚ → String) (d e : Dim) (a : Arr α) (hs : a.shape = shape [d, e])
    (h : d.points.length < e.points.length) : plot g2 true 1 [d, e] a = .error .index := by
  have hm : (a.moved 1).shape = [e.points.length, d.points.length] := by simp [Arr.moved, hs, shape]
  have herr : ∀ s r, (a.moved 1).curve s = .error r → r = .index := by
    intro s r hr
    unfold Arr.curve at hr
    by_contra hne
    generalize List.range _ = l at hr
    induction l with
    | nil => cases hr
    | cons x xs ih =>
      rw [List.mapM_cons] at hr
      cases hx : (a.moved 1).get (x :: s) with
      | error q => rw [hx] at hr; cases hr; exact hne (get_error _ _ _ hx)
      | ok v =>
        rw [hx] at hr
        cases hxs : xs.mapM fun (j : ℕ) => (a.moved 1).get (j :: s) with
        | error q =>
          rw [hxs] at hr
          have : r = q := by cases hr; rfl
          exact ih (by rw [hxs, this])
        | ok v => rw [hxs] at hr; cases hr
  have hbad : (a.moved 1).curve [d.points.length] = .error .index := by
    unfold Arr.curve
    rw [hm]
    refine mapM_error _ _ _ (fun x _ r hr => get_error _ _ _ hr) 0 (by simp; omega) ?_
    rw [Arr.get, if_neg]
    rw [hm]
    simp
  have key : ∀ (ss : List (List ℕ)) (ls : List (Line α)), ss.length ≤ ls.length → [d.points.length] ∈ ss →
      assign (a.moved 1) ss ls = .error .index := by
    intro ss
    induction ss with
    | nil => intro _ _ h; simp at h
    | cons s ss ih =>
      intro ls hl hmem
      cases ls with
      | nil => simp at hl
      | cons l ls =>
        simp only [assign]
        cases hc : (a.moved 1).curve s with
        | error r => rw [herr s r hc]
        | ok y =>
          rcases List.mem_cons.1 hmem with h | h
          · rw [← h, hbad] at hc; cases hc
          · simp only [ih ls (by simpa using hl) h]
  show update 1 [d, e] a _ = _
  unfold update
  simp only
  have h1 : axis [d, e].length 1 = .ok 1 := rfl
  rw [h1]
  simp only
  refine key _ _ (by simp) ((mem_sections _ _).2 ?_)
  exact .cons h .nil

/-- C123: with two dimensions, curves of different titles of sample points have different labels. -/
theorem C123_labels_partial (g2 : ℚ → String) (e : Dim) (j k : ℕ) (p q : Point) (hp : e.points[j]? = some p) (hq : e.points[k]? = some q)
    (h : p.label g2 ≠ q.label g2) : label g2 [e] [j] ≠ label g2 [e] [k] := by
  simp only [label, hp, hq, List.zipWith_cons_cons, List.zipWith_nil_left, Option.map_some, Option.getD_some,
    String.intercalate_singleton]
  simpa using h

/-- C123 does not hold: two numbers equal in two digits have the same title, whence curves of different sections the same label. -/
theorem C123_labels_fails (g2 : ℚ → String) (hg : ∀ x : ℚ, 199 / 200 < x → x < 21 / 20 → g2 x = "1") (t : String) (x y : ℚ)
    (hx : 199 / 200 < x ∧ x < 21 / 20) (hy : 199 / 200 < y ∧ y < 21 / 20) :
    label g2 [⟨t, [⟨.flt x, none⟩, ⟨.flt y, none⟩]⟩] [0] = label g2 [⟨t, [⟨.flt x, none⟩, ⟨.flt y, none⟩]⟩] [1] := by
  simp [label, Point.label, hg x hx.1 hx.2, hg y hy.1 hy.2]

/-- C123: a base dimension counted from the end is that counted from the start, and others raise IndexError. -/
theorem C123_base {α : Type} [Zero α] (g2 : ℚ → String) (g : List Dim) (a : Arr α) :
    (∀ k : ℕ, k < g.length → plot g2 true ((k : ℤ) - g.length) g a = plot g2 true k g a) ∧
    ∀ b : ℤ, g ≠ [] → b < -(g.length : ℤ) ∨ (g.length : ℤ) ≤ b → plot g2 true b g a = .error .index := by
  have hax : ∀ k : ℕ, k < g.length → axis g.length ((k : ℤ) - g.length) = axis g.length k := by
    intro k hk
    unfold axis
    rw [if_pos (by omega : -(g.length : ℤ) ≤ (k : ℤ) - g.length ∧ (k : ℤ) - g.length < g.length),
      if_pos (by omega : -(g.length : ℤ) ≤ (k : ℤ) ∧ (k : ℤ) < g.length),
      if_pos (by omega : (k : ℤ) - g.length < 0), if_neg (by omega : ¬(k : ℤ) < 0), sub_add_cancel]
  constructor
  · intro k hk
    cases g with
    | nil => simp at hk
    | cons d ds =>
      unfold plot update
      simp only [hax k hk]
  · intro b hg hb
    cases g with
    | nil => exact absurd rfl hg
    | cons d ds =>
      have : axis (d :: ds).length b = .error .index := if_neg (by omega)
      unfold plot update
      simp only [prepare, if_true, this]

/-- C123: over two dimensions, the curve of a sample point is labelled with the title of its dimension and the title given to it, or the
value it has. -/
theorem C123_legend {α : Type} [Zero α] (g2 : ℚ → String) (d e : Dim) (a : Arr α) (hs : a.shape = shape [d, e]) (k : ℕ) (p : Point)
    (hp : e.points[k]? = some p) :
    ∃ ls l, plot g2 true 0 [d, e] a = .ok ls ∧ ls[k]? = some l ∧
      (∀ t, p.title = some t → l.label = some (e.title ++ " = " ++ t)) ∧
      (∀ z, p.title = none → p.value = .int z → l.label = some (e.title ++ " = " ++ toString z)) ∧
      (∀ s q, p.title = none → p.value = .own s q → l.label = some (e.title ++ " = " ++ s)) ∧
      (p.title = none → p.value = .flag true → l.label = some (e.title ++ " = True")) ∧
      (p.title = none → p.value = .flag false → l.label = some (e.title ++ " = False")) := by
  have hk : k < e.points.length := by
    by_contra h
    rw [List.getElem?_eq_none (by omega)] at hp
    cases hp
  refine ⟨_, ⟨label g2 [e] [k], d.points.map Point.value, (List.range d.points.length).map fun (j : ℕ) => a.val [j, k]⟩,
    C123_curves_partial g2 0 d [e] a hs (.inl rfl), ?_, ?_⟩
  · have : ndindex (shape [e]) = (List.range e.points.length).map fun (i : ℕ) => [i] := by
      simp [ndindex, shape, ← List.map_eq_flatMap]
    rw [this, List.getElem?_map, List.getElem?_map, List.getElem?_range hk]
    rfl
  · have hl : label g2 [e] [k] = some (e.title ++ " = " ++ p.label g2) := by
      simp only [label, hp, List.zipWith_cons_cons, List.zipWith_nil_left, Option.map_some, Option.getD_some,
        String.intercalate_singleton]
      simp
    simp only [hl, Point.label]
    refine ⟨fun t h => by rw [h], fun z h h' => by rw [h, h'], fun s q h h' => by rw [h, h'], fun h h' => ?_, fun h h' => ?_⟩ <;>
      rw [h, h'] <;> simp [String.append_assoc]

/-! ### Surfaces -/

/-- C123: a surface of a result whose base dimension is the first has, above each pair of sample points, the result of the section. -/
theorem C123_surface_partial {α : Type} (b : ℤ) (d e : Dim) (a : Arr α) (xs ys : List ℚ) (hs : a.shape = shape [d, e])
    (hb : b = 0 ∨ b = -2) (hx : d.points.mapM (fun p => p.value.number) = .ok xs) (hxl : xs.length = d.points.length)
    (hy : e.points.mapM (fun p => p.value.number) = .ok ys) (hyl : ys.length = e.points.length) :
    ∃ r, surface b d e a = .ok r ∧ r.length = d.points.length ∧
      ∀ i j, i < d.points.length → j < e.points.length →
        (r.getD i []).length = e.points.length ∧ (r.getD i [])[j]? = some (xs.getD i 0, ys.getD j 0, a.val [i, j]) := by
  have hk : axis 2 b = .ok 0 := axis_zero 2 (by norm_num) b (by simpa using hb)
  have hm : (a.moved 0).shape = [d.points.length, e.points.length] := moved_zero a _ _ (by rw [hs]; rfl)
  have hm0 : (a.moved 0).shape.getD 0 0 = d.points.length := by rw [hm]; rfl
  have hm1 : (a.moved 0).shape.getD 1 0 = e.points.length := by rw [hm]; rfl
  have hbr : ∀ n, broadcast n n = .ok n := fun n => by simp [broadcast]
  refine ⟨(List.range d.points.length).map fun (i : ℕ) => (List.range e.points.length).map fun (j : ℕ) =>
    (xs.getD (if xs.length = 1 then 0 else i) 0, ys.getD (if ys.length = 1 then 0 else j) 0,
      (a.moved 0).val [if d.points.length = 1 then 0 else i, if e.points.length = 1 then 0 else j]), ?_, by simp, ?_⟩
  · unfold surface
    rw [hk]
    simp only [hx, hy, hxl, hyl, hm0, hm1, hbr]
  · intro i j hi hj
    have h1 : (if d.points.length = 1 then 0 else i) = i := by split <;> omega
    have h2 : (if e.points.length = 1 then 0 else j) = j := by split <;> omega
    have hrow : ∀ f : ℕ → List (ℚ × ℚ × α), ((List.range d.points.length).map f).getD i [] = f i := by
      intro f
      simp [List.getD_eq_getElem?_getD, hi]
    rw [hrow]
    refine ⟨by simp, ?_⟩
    rw [List.getElem?_map, List.getElem?_range hj, Option.map_some, hxl, hyl, h1, h2]
    rfl

/-- C123: the coordinates of a surface are the sample points: numbers themselves, flags as zero and one. -/
theorem C123_surface_points {α : Type} (d e : Dim) (a : Arr α) (xs ys : List ℚ) (hs : a.shape = shape [d, e])
    (hx : d.points.mapM (fun p => p.value.number) = .ok xs) (hy : e.points.mapM (fun p => p.value.number) = .ok ys) (i j : ℕ) (p : Point)
    (hp : d.points[i]? = some p) (hj : j < e.points.length) :
    ∃ r c, surface 0 d e a = .ok r ∧ (r.getD i [])[j]? = some c ∧ c.2.2 = a.val [i, j] ∧
      (∀ x, p.value = .flt x → c.1 = x) ∧ (∀ z, p.value = .int z → c.1 = z) ∧ (∀ s q, p.value = .own s (some q) → c.1 = q) ∧
      (p.value = .flag true → c.1 = 1) ∧ (p.value = .flag false → c.1 = 0) := by
  have hall : ∀ (l : List Point) (zs : List ℚ), l.mapM (fun p => p.value.number) = .ok zs →
      zs.length = l.length ∧ ∀ (i : ℕ) (p : Point), l[i]? = some p → p.value.number = .ok (zs.getD i 0) := by
    intro l
    induction l with
    | nil => intro zs h; cases h; simp
    | cons q l ih =>
      intro zs h
      rw [List.mapM_cons] at h
      cases hq : q.value.number with
      | error e => rw [hq] at h; cases h
      | ok v =>
        rw [hq] at h
        cases hr : l.mapM (fun p => p.value.number) with
        | error e => rw [hr] at h; cases h
        | ok w =>
          rw [hr] at h
          cases h
          obtain ⟨h1, h2⟩ := ih w hr
          refine ⟨by simp [h1], fun i p hp => ?_⟩
          cases i with
          | zero => simp at hp; subst hp; simpa using hq
          | succ i => simpa using h2 i p (by simpa using hp)
  obtain ⟨hxl, hxv⟩ := hall _ _ hx
  obtain ⟨hyl, -⟩ := hall _ _ hy
  have hi : i < d.points.length := by
    by_contra h
    rw [List.getElem?_eq_none (by omega)] at hp
    cases hp
  obtain ⟨r, hr, -, hrow⟩ := C123_surface_partial 0 d e a xs ys hs (.inl rfl) hx hxl hy hyl
  have hv := hxv i p hp
  refine ⟨r, _, hr, (hrow i j hi hj).2, rfl, ?_, ?_, ?_, ?_, ?_⟩
  · intro x h; rw [h] at hv; injection hv with hv; exact hv.symm
  · intro x h; rw [h] at hv; injection hv with hv; exact hv.symm
  · intro x q h; rw [h] at hv; injection hv with hv; exact hv.symm
  · intro h; rw [h] at hv; injection hv with hv; exact hv.symm
  · intro h; rw [h] at hv; injection hv with hv; exact hv.symm

/-- C123 does not hold: with the second dimension as base the surface of a grid of different numbers of sample points cannot be drawn. -/
theorem C123_surface_raises_fails {α : Type} (d e : Dim) (a : Arr α) (xs ys : List ℚ) (hs : a.shape = shape [d, e])
    (hx : d.points.mapM (fun p => p.value.number) = .ok xs) (hxl : xs.length = d.points.length)
    (hy : e.points.mapM (fun p => p.value.number) = .ok ys)
    (hne : d.points.length ≠ e.points.length) (h1 : d.points.length ≠ 1) (h2 : e.points.length ≠ 1) :
    surface 1 d e a = .error .value := by
  have hk : axis 2 1 = .ok 1 := rfl
  have hm : (a.moved 1).shape = [e.points.length, d.points.length] := by simp [Arr.moved, hs, shape]
  have hm0 : (a.moved 1).shape.getD 0 0 = e.points.length := by rw [hm]; rfl
  have hb : broadcast d.points.length e.points.length = .error .value := by simp [broadcast, hne, h1, h2]
  unfold surface
  rw [hk]
  simp only [hx, hy, hxl, hm0, hb]

/-- C123 does not hold: with the second dimension as base the surface of a square grid has above `(x, y)` the result of `(y, x)`. -/
theorem C123_surface_fails {α : Type} (d e : Dim) (a : Arr α) (n : ℕ) (xs ys : List ℚ) (hs : a.shape = [n, n])
    (hx : d.points.mapM (fun p => p.value.number) = .ok xs) (hxl : xs.length = n)
    (hy : e.points.mapM (fun p => p.value.number) = .ok ys) (hyl : ys.length = n) (i j : ℕ) (hi : i < n) (hj : j < n) :
    ∃ r, surface 1 d e a = .ok r ∧ (r.getD i [])[j]? = some (xs.getD i 0, ys.getD j 0, a.val [j, i]) := by
  have hk : axis 2 1 = .ok 1 := rfl
  have hm : (a.moved 1).shape = [n, n] := by simp [Arr.moved, hs]
  have hm0 : (a.moved 1).shape.getD 0 0 = n := by rw [hm]; rfl
  have hm1 : (a.moved 1).shape.getD 1 0 = n := by rw [hm]; rfl
  have hbr : ∀ n, broadcast n n = .ok n := fun n => by simp [broadcast]
  refine ⟨(List.range n).map fun (i : ℕ) => (List.range n).map fun (j : ℕ) =>
    (xs.getD (if n = 1 then 0 else i) 0, ys.getD (if n = 1 then 0 else j) 0,
      (a.moved 1).val [if n = 1 then 0 else i, if n = 1 then 0 else j]), ?_, ?_⟩
  · unfold surface
    rw [hk]
    simp only [hx, hy, hxl, hyl, hm0, hm1, hbr]
  · have h1 : (if n = 1 then 0 else i) = i := by split <;> omega
    have h2 : (if n = 1 then 0 else j) = j := by split <;> omega
    have hrow : ∀ f : ℕ → List (ℚ × ℚ × α), ((List.range n).map f).getD i [] = f i := by
      intro f
      simp [List.getD_eq_getElem?_getD, hi]
    rw [hrow, List.getElem?_map, List.getElem?_range hj, Option.map_some, h1, h2]
    simp [Arr.moved]

/-- C123 does not hold: a grid of two dimensions of which the first sweeps over objects cannot be plotted as a surface, the default. -/
theorem C123_objects_fails {α : Type} (b : ℤ) (hb : -2 ≤ b ∧ b < 2) (d e : Dim) (a : Arr α) (p : Point) (hp : p ∈ d.points)
    (c : String) (hc : p.value = .other c) : surface b d e a = .error .type := by
  have herr : ∀ (v : Val) (r : PyErr), v.number = .error r → r = .type := by
    intro v r h
    unfold Val.number at h
    split at h <;> cases h
    rfl
  have hx : d.points.mapM (fun p => p.value.number) = .error .type :=
    mapM_error _ _ _ (fun x _ r hr => herr _ _ hr) p hp (by rw [hc]; rfl)
  unfold surface
  have : ∃ k, axis 2 b = .ok k := ⟨_, if_pos (by simpa using hb)⟩
  obtain ⟨k, hk⟩ := this
  rw [hk]
  simp only [hx]

/-! ### Tables -/

/-- C123: the printed table of a simulation has one row for each section of the grid, with the titles of its sample points followed by
the results of all evaluators. -/
theorem C123_table {α : Type} (g2 : ℚ → String) (fmt : Bool → α → String) (g : List Dim) (rs : List (Res α)) (db : Res α → Bool)
    (hs : ∀ r ∈ rs, r.arr.shape = shape g) (he : ∀ r ∈ rs, r.evaluator = some (db r)) :
    ∃ rows, printAll g2 fmt g rs = .ok rows ∧ rows.length = (shape g).prod ∧
      ∀ c, List.Forall₂ (· < ·) c (shape g) → ∃ i : ℕ, (ndindex (shape g))[i]? = some c ∧
        rows[i]? = some (titles g2 g c ++ rs.map fun (r : Res α) => fmt (db r) (r.arr.val c)) := by
  have h : printAll g2 fmt g rs = .ok ((ndindex (shape g)).map fun c =>
      titles g2 g c ++ rs.map fun (r : Res α) => fmt (db r) (r.arr.val c)) := by
    refine mapM_ok _ _ _ fun c hc => ?_
    have hc' := (mem_sections _ c).1 hc
    rw [mapM_ok (fun (r : Res α) => r.toStr fmt c) (fun r => fmt (db r) (r.arr.val c)) rs]
    · rfl
    · intro r hr
      unfold Res.toStr
      rw [get_ok r.arr c (by rw [hs r hr]; exact hc'), he r hr]
  refine ⟨_, h, by simp [Verif.Mc.length_ndindex], fun c hc => ?_⟩
  obtain ⟨i, hi⟩ := List.getElem?_of_mem ((mem_sections _ c).2 hc)
  exact ⟨i, hi, by rw [List.getElem?_map, hi]; rfl⟩

/-- C123: the row of a section starts with the sample points of the section, one for each dimension, and continues with the results of the
section, one for each evaluator. -/
theorem C123_rows {α : Type} (g2 : ℚ → String) (fmt : Bool → α → String) (g : List Dim) (rs : List (Res α)) (db : Res α → Bool)
    (hs : ∀ r ∈ rs, r.arr.shape = shape g) (he : ∀ r ∈ rs, r.evaluator = some (db r)) (c : List ℕ)
    (hc : List.Forall₂ (· < ·) c (shape g)) :
    ∃ (rows : List (List String)) (i : ℕ) (row : List String), printAll g2 fmt g rs = .ok rows ∧ (ndindex (shape g))[i]? = some c ∧ rows[i]? = some row ∧
      row.length = g.length + rs.length ∧
      (∀ (k : ℕ) (d : Dim) (p : Point), g[k]? = some d → d.points[c.getD k 0]? = some p → row[k]? = some (p.label g2)) ∧
      ∀ (k : ℕ) (r : Res α), rs[k]? = some r → row[g.length + k]? = some (fmt (db r) (r.arr.val c)) := by
  obtain ⟨rows, h, -, hrow⟩ := C123_table g2 fmt g rs db hs he
  obtain ⟨i, hi, hr⟩ := hrow c hc
  have hl : c.length = g.length := by simpa [shape] using hc.length_eq
  have ht : (titles g2 g c).length = g.length := by simp [titles, hl]
  refine ⟨rows, i, _, h, hi, hr, by simp [ht], fun k d p hd hp => ?_, fun k r hk => ?_⟩
  · have hk : k < g.length := by
      by_contra hk
      rw [List.getElem?_eq_none (by omega)] at hd
      cases hd
    rw [List.getElem?_append_left (by omega)]
    have hck : c[k]? = some (c.getD k 0) := by simp [List.getD_eq_getElem?_getD, hl, hk]
    simp only [titles, List.getElem?_zipWith, hck, hd, hp, Option.map_some, Option.getD_some]
  · rw [List.getElem?_append_right (by omega), ht, Nat.add_sub_cancel_left, List.getElem?_map, hk]
    rfl

/-- C123 does not hold: a simulation of which a result has no evaluator cannot be printed. -/
theorem C123_unprinted_fails {α : Type} (g2 : ℚ → String) (fmt : Bool → α → String) (g : List Dim) (rs : List (Res α))
    (hs : ∀ r ∈ rs, r.arr.shape = shape g) (r : Res α) (hr : r ∈ rs) (he : r.evaluator = none) (c : List ℕ)
    (hc : List.Forall₂ (· < ·) c (shape g)) : printAll g2 fmt g rs = .error .attribute := by
  have hone : ∀ c ∈ ndindex (shape g), (rs.mapM fun (r : Res α) => r.toStr fmt c) = .error .attribute := by
    intro c hc
    refine mapM_error _ _ _ (fun x hx e h => ?_) r hr ?_
    · unfold Res.toStr at h
      rw [get_ok x.arr c (by rw [hs x hx]; exact (mem_sections _ c).1 hc)] at h
      cases hx' : x.evaluator with
      | none => rw [hx'] at h; injection h with h; exact h.symm
      | some b => rw [hx'] at h; cases h
    · unfold Res.toStr
      rw [get_ok r.arr c (by rw [hs r hr]; exact (mem_sections _ c).1 hc), he]
  unfold printAll
  refine mapM_error _ _ _ (fun x hx e h => ?_) c ((mem_sections _ c).2 hc) ?_
  · rw [hone x hx] at h
    injection h with h
    exact h.symm
  · rw [hone c ((mem_sections _ c).2 hc)]
    rfl

/-- C123 does not hold: the printed table of a single result has no rows. -/
theorem C123_table_fails {α : Type} (fmt : Bool → α → String) (g : List Dim) (r : Res α) (db : Bool)
    (hs : r.arr.shape = shape g) (he : r.evaluator = some db) : printOne fmt g r = .ok [] := by
  unfold printOne
  rw [mapM_ok (fun c => r.toStr fmt c) (fun c => fmt db (r.arr.val c))]
  intro c hc
  unfold Res.toStr
  rw [get_ok r.arr c (by rw [hs]; exact (mem_sections _ c).1 hc), he]

/-! ### Files -/

theorem find_put {α : Type} (d : List (String × Entry α)) (k k' : String) (v : Entry α) :
    find (put d k v) k' = if k = k' then some v else find d k' := by
  unfold find put
  by_cases h : k = k'
  · simp [h]
  · rw [List.find?_cons_of_neg (by simpa using h), if_neg h, List.find?_filter]
    congr 1
    congr 1
    funext e
    by_cases he : e.1 = k'
    · simp [he, Ne.symm h]
    · simp [he]

theorem key_inj {r s : ℕ} (h : key r = key s) : r = s :=
  Nat.repr_injective (by simpa [key] using h)

theorem find_putResults {α : Type} (rs : List (Res α)) (r : ℕ) (d : List (String × Entry α)) (k : String) :
    find (putResults r rs d) k = match (List.range rs.length).find? fun (i : ℕ) => key (r + i) = k with
      | some i => (rs[i]?).map fun x => .data x.arr
      | none => find d k := by
  induction rs generalizing r d with
  | nil => rfl
  | cons x xs ih =>
    rw [putResults, ih, List.length_cons, List.range_succ_eq_map]
    by_cases h : key r = k
    · have hnone : ((List.range xs.length).find? fun (i : ℕ) => key (r + 1 + i) = k) = none := by
        rw [List.find?_eq_none]
        intro i _ hi
        have := key_inj ((by simpa using hi : key (r + 1 + i) = k).trans h.symm)
        omega
      rw [hnone]
      simp [h, find_put]
    · rw [List.find?_cons_of_neg (by simpa using h), List.find?_map, find_put, if_neg h]
      have : ((fun i : ℕ => decide (key (r + i) = k)) ∘ Nat.succ) = fun (i : ℕ) => decide (key (r + 1 + i) = k) := by
        funext i
        simp only [Function.comp, Nat.succ_eq_add_one, Nat.add_assoc, Nat.add_comm 1 i]
      rw [this]
      cases (List.range xs.length).find? fun (i : ℕ) => decide (key (r + 1 + i) = k) with
      | none => rfl
      | some i => simp

theorem find_putDims_ne {α : Type} (g : List Dim) (d : List (String × Entry α)) (k : String) (h : ∀ x ∈ g, x.title ≠ k) :
    find (putDims g d) k = find d k := by
  induction g generalizing d with
  | nil => rfl
  | cons x xs ih =>
    rw [putDims, ih _ fun y hy => h y (by simp [hy]), find_put, if_neg (h x (by simp))]

theorem find_putDims_last {α : Type} (g : List Dim) (x : Dim) (gs : List Dim) (d : List (String × Entry α))
    (h : ∀ y ∈ gs, y.title ≠ x.title) : find (putDims (g ++ x :: gs) d) x.title = some (.points x.points) := by
  induction g generalizing d with
  | nil => rw [List.nil_append, putDims, find_putDims_ne _ _ _ h, find_put, if_pos rfl]
  | cons y ys ih => exact ih _

/-- C123: with different titles of dimensions, none of which is a reserved name, the file contains the array of every result, the sample
points of every dimension and the names. -/
theorem C123_saved_partial {α : Type} (m : Result α) (hn : (m.grid.map Dim.title).Nodup)
    (hr : ∀ x ∈ m.grid, x.title ≠ "dimensions" ∧ x.title ≠ "evaluators" ∧ x.title ≠ "performance_time" ∧ ∀ r, x.title ≠ key r) :
    (∀ (i : ℕ) (r : Res α), m.results[i]? = some r → find m.dict (key i) = some (.data r.arr)) ∧
      (∀ x ∈ m.grid, find m.dict x.title = some (.points x.points)) ∧
      find m.dict "dimensions" = some (.names (m.grid.map Dim.title)) ∧ find m.dict "evaluators" = some (.names m.evaluators) ∧
      find m.dict "performance_time" = some (.time m.time) := by
  have hk : ∀ (r : ℕ) (s : String), s.toList.head? ≠ some 'r' → key r ≠ s := by
    intro r s hs he
    rw [← he] at hs
    exact hs (by simp [key])
  have hother : ∀ s : String, s.toList.head? ≠ some 'r' → (∀ x ∈ m.grid, x.title ≠ s) → find m.dict s =
      find (α := α) [("dimensions", .names (m.grid.map Dim.title)), ("evaluators", .names m.evaluators), ("performance_time", .time m.time)] s := by
    intro s hs hx
    have hnone : ((List.range m.results.length).find? fun (i : ℕ) => key (0 + i) = s) = none := by
      rw [List.find?_eq_none]
      intro i _ hi
      exact hk _ _ hs (by simpa using hi)
    rw [Result.dict, find_putDims_ne _ _ _ hx, find_putResults, hnone]
    simp only
    rw [find_putResults, hnone]
  refine ⟨?_, ?_, ?_, ?_, ?_⟩
  · intro i r hi
    rw [Result.dict, find_putDims_ne _ _ _ fun x hx => (hr x hx).2.2.2 i, find_putResults]
    have hlt : i < m.results.length := (List.getElem?_eq_some_iff.1 hi).1
    cases hf : (List.range m.results.length).find? fun (j : ℕ) => decide (key (0 + j) = key i) with
    | none =>
      rw [List.find?_eq_none] at hf
      exact absurd (by simp) (hf i (List.mem_range.2 hlt))
    | some j =>
      have hj : j = i := key_inj (by simpa using List.find?_some hf)
      rw [hj]
      simp only [hi, Option.map_some]
  · intro x hx
    obtain ⟨a, b, hab⟩ := List.append_of_mem hx
    rw [Result.dict, hab]
    refine find_putDims_last a x b _ fun y hy he => ?_
    rw [hab] at hn
    simp only [List.map_append, List.map_cons, List.nodup_append, List.nodup_cons] at hn
    exact hn.2.1.1 (List.mem_map.2 ⟨y, hy, he⟩)
  · rw [hother "dimensions" (by decide) fun x hx => (hr x hx).1]; rfl
  · rw [hother "evaluators" (by decide) fun x hx => (hr x hx).2.1]; rfl
  · rw [hother "performance_time" (by decide) fun x hx => (hr x hx).2.2.1]; rfl

/-- C123 does not hold: of two dimensions with the same title only the sample points of the last are saved. -/
theorem C123_saved_fails {α : Type} (m : Result α) (g h : List Dim) (x y : Dim) (hm : m.grid = g ++ y :: h) (_hx : x ∈ g)
    (ht : x.title = y.title) (hl : ∀ z ∈ h, z.title ≠ y.title) (hp : x.points ≠ y.points) :
    find m.dict x.title = some (.points y.points) ∧ find m.dict x.title ≠ some (.points x.points) := by
  have : find m.dict x.title = some (.points y.points) := by
    rw [Result.dict, hm, ht]
    exact find_putDims_last g y h _ hl
  refine ⟨this, ?_⟩
  rw [this]
  simpa using hp.symm

/-- C123 does not hold: the sample points of a dimension with the key of a result as title replace the result. -/
theorem C123_replaced_fails {α : Type} (m : Result α) (x : Dim) (hx : x ∈ m.grid) (i : ℕ) (ht : x.title = key i) :
    ∃ p, find m.dict (key i) = some (.points p) := by
  have : ∀ (g : List Dim) (d : List (String × Entry α)), x ∈ g → ∃ p, find (putDims g d) (key i) = some (.points p) := by
    intro g
    induction g with
    | nil => intro _ h; simp at h
    | cons y ys ih =>
      intro d h
      by_cases hy : ∃ z ∈ ys, z.title = key i
      · have key2 : ∀ (g : List Dim) (d : List (String × Entry α)), (∃ z ∈ g, z.title = key i) →
            ∃ p, find (putDims g d) (key i) = some (.points p) := by
          intro g
          induction g with
          | nil => rintro d ⟨z, h, -⟩; simp at h
          | cons y ys ih =>
            intro d h
            by_cases hy : ∃ z ∈ ys, z.title = key i
            · exact ih _ hy
            · obtain ⟨z, hz, he⟩ := h
              rcases List.mem_cons.1 hz with rfl | hz
              · refine ⟨z.points, ?_⟩
                rw [putDims, find_putDims_ne _ _ _ (fun w hw he' => hy ⟨w, hw, he'⟩), find_put, if_pos he]
              · exact absurd ⟨z, hz, he⟩ hy
        exact key2 _ _ (by simpa using Or.inr hy)
      · rcases List.mem_cons.1 h with rfl | h
        · refine ⟨x.points, ?_⟩
          rw [putDims, find_putDims_ne _ _ _ (fun w hw he' => hy ⟨w, hw, he'⟩), find_put, if_pos ht]
        · exact absurd ⟨x, h, ht⟩ hy
  exact this _ _ hx

/-- C123 does not hold: the time stored with the result, and saved with it, is not the duration of the simulation. -/
theorem C123_time_fails {α : Type} (g : List Dim) (evaluators : List String) (rs : List (Res α)) (start stop : ℚ) (h : start < stop) :
    (finish g evaluators rs start stop).1.time ≠ (finish g evaluators rs start stop).2 := by
  show (0 : ℚ) ≠ stop - start
  have : 0 < stop - start := by linarith
  exact this.ne

/-! ### Intermediate results -/

/-- C123: among as many consecutive refreshes as pages, each section is shown in exactly one, and no page has more than eight. -/
theorem C123_pages (n k s : ℕ) (hs : s < n) :
    (∃ i < numPages n, s ∈ shown n (k + i) ∧ ∀ j < numPages n, s ∈ shown n (k + j) → j = i) ∧ (shown n k).length ≤ 8 := by
  have hp : 0 < numPages n := by simp [numPages]
  have hq : 0 < perPage n := by simp [perPage]
  have hmem : ∀ r, s ∈ shown n r ↔ r % numPages n = s / perPage n := by
    intro r
    simp only [shown, List.mem_filter, List.mem_range, hs, true_and, Bool.not_eq_true', Bool.or_eq_false_iff, decide_eq_false_iff_not,
      not_lt, not_le]
    rw [eq_comm, Nat.div_eq_iff hq]
    constructor
    · rintro ⟨h1, h2⟩
      rw [Nat.add_mul, Nat.one_mul] at h2
      exact ⟨h1, by omega⟩
    · rintro ⟨h1, h2⟩
      rw [Nat.add_mul, Nat.one_mul]
      exact ⟨h1, by omega⟩
  have hpage : s / perPage n < numPages n := by
    rw [Nat.div_lt_iff_lt_mul hq, perPage, Nat.mul_add, Nat.mul_one]
    have := Nat.div_add_mod n (numPages n)
    have := Nat.mod_lt n hp
    omega
  constructor
  · refine ⟨(s / perPage n + (numPages n - k % numPages n)) % numPages n, Nat.mod_lt _ hp, (hmem _).2 ?_, fun j hj h => ?_⟩
    · have hk := Nat.mod_lt k hp
      have h1 : (k + (s / perPage n + (numPages n - k % numPages n)) % numPages n) % numPages n =
          (k % numPages n + (s / perPage n + (numPages n - k % numPages n))) % numPages n := by
        simp [Nat.add_mod]
      have h2 : k % numPages n + (s / perPage n + (numPages n - k % numPages n)) = s / perPage n + numPages n := by omega
      rw [h1, h2, Nat.add_mod_right, Nat.mod_eq_of_lt hpage]
    · have hk := Nat.mod_lt k hp
      have h3 := (hmem _).1 h
      rw [← h3]
      have h4 : ((k + j) % numPages n + (numPages n - k % numPages n)) % numPages n =
          (k % numPages n + j + (numPages n - k % numPages n)) % numPages n := by
        simp [Nat.add_mod]
      have h5 : k % numPages n + j + (numPages n - k % numPages n) = j + numPages n := by omega
      rw [h4, h5, Nat.add_mod_right, Nat.mod_eq_of_lt hj]
  · have hper : perPage n ≤ 8 := by
      have : n / numPages n < 8 := by
        rw [Nat.div_lt_iff_lt_mul hp]
        simp only [numPages]
        omega
      simp only [perPage]
      omega
    refine le_trans ?_ hper
    have hsub : (shown n k).toFinset ⊆ Finset.Ico (k % numPages n * perPage n) ((k % numPages n + 1) * perPage n) := by
      intro x hx
      simp only [shown, List.mem_toFinset, List.mem_filter, Bool.not_eq_true', Bool.or_eq_false_iff, decide_eq_false_iff_not, not_lt,
        not_le] at hx
      exact Finset.mem_Ico.2 hx.2
    have hnd : (shown n k).Nodup := List.nodup_range.filter _
    rw [← List.toFinset_card_of_nodup hnd]
    refine (Finset.card_le_card hsub).trans ?_
    rw [Nat.card_Ico, Nat.add_mul, Nat.one_mul]
    omega

/-! ### Cases -/

/-- Two dimensions with two sample points each, and a result of four different values. -/
def snr : Dim := ⟨"SNR", [⟨.flt 1, none⟩, ⟨.flt 2, none⟩]⟩

def order : Dim := ⟨"order", [⟨.int 4, none⟩, ⟨.int 16, none⟩]⟩

def measured : Arr ℚ := ⟨[2, 2], fun c => 10 * (c.getD 0 0 : ℕ) + (c.getD 1 0 : ℕ)⟩

/-- The hypotheses of `C123_curves_partial`: two curves, labelled with the orders, with the results over the first dimension. -/
example : ∃ l m : Line ℚ, plot (fun _ => "x") true 0 [snr, order] measured = .ok [l, m] ∧ l.label = some "order = 4" ∧ l.y = [0, 10] ∧
    m.label = some "order = 16" ∧ m.y = [1, 11] := by
  rw [C123_curves_partial _ 0 snr [order] measured rfl (.inl rfl)]
  refine ⟨_, _, rfl, ?_, ?_, ?_, ?_⟩
  · simp [label, order, Point.label, String.intercalate_singleton]
    rfl
  · decide +kernel
  · simp [label, order, Point.label, String.intercalate_singleton]
    rfl
  · decide +kernel

example : ∃ ls l, plot (fun _ => "x") true 1 [snr, order] measured = .ok ls ∧ ls[1]? = some l ∧
    l.label = label (fun _ => "x") [order] [1] ∧ l.y[0]? = some (measured.val [1, 0]) ∧ l.y[0]? ≠ some (measured.val [0, 1]) :=
  C123_curves_fails _ snr order measured 2 rfl rfl rfl 0 1 (by norm_num) (by norm_num) (by decide +kernel)

example : plot (α := ℚ) (fun _ => "x") true 1 [⟨"SNR", [⟨.flt 1, none⟩]⟩, order] ⟨[1, 2], fun _ => 3⟩ = .error .index :=
  C123_raises_fails _ _ _ _ rfl (by decide)

example : surface 1 snr order measured = .ok [[(1, 4, 0), (1, 16, 10)], [(2, 4, 1), (2, 16, 11)]] := by decide +kernel

example : surface 0 snr order measured = .ok [[(1, 4, 0), (1, 16, 1)], [(2, 4, 10), (2, 16, 11)]] := by decide +kernel

/-- The hypotheses of `C123_base`, `C123_legend` and `C123_surface_points`. -/
example : plot (fun _ => "x") true (-1) [snr, order] measured = plot (fun _ => "x") true 1 [snr, order] measured ∧
    plot (fun _ => "x") true 2 [snr, order] measured = .error .index :=
  ⟨(C123_base _ [snr, order] measured).1 1 (by decide), (C123_base _ [snr, order] measured).2 2 (by simp) (by simp)⟩

example : ∃ ls l, plot (fun _ => "x") true 0 [snr, order] measured = .ok ls ∧ ls[1]? = some l ∧ l.label = some "order = 16" := by
  obtain ⟨ls, l, h1, h2, -, h3, -⟩ := C123_legend (fun _ => "x") snr order measured rfl 1 ⟨.int 16, none⟩ rfl
  exact ⟨ls, l, h1, h2, by rw [h3 16 rfl rfl]; decide +kernel⟩

example : ∃ r c, surface 0 ⟨"flag", [⟨.flag false, none⟩, ⟨.flag true, none⟩]⟩ order measured = .ok r ∧ (r.getD 1 [])[1]? = some c ∧
    c.1 = 1 ∧ c.2.2 = 11 := by
  obtain ⟨r, c, h1, h2, h3, -, -, -, h4, -⟩ := C123_surface_points ⟨"flag", [⟨.flag false, none⟩, ⟨.flag true, none⟩]⟩ order measured
    [0, 1] [4, 16] rfl (by decide +kernel) (by decide +kernel) 1 1 ⟨.flag true, none⟩ rfl (by decide)
  exact ⟨r, c, h1, h2, h4 rfl, by rw [h3]; decide +kernel⟩

example : surface 1 snr ⟨"order", [⟨.int 4, none⟩, ⟨.int 16, none⟩, ⟨.int 64, none⟩]⟩ (⟨[2, 3], fun _ => 1⟩ : Arr ℚ) = .error .value :=
  C123_surface_raises_fails _ _ _ [1, 2] [4, 16, 64] rfl (by decide +kernel) rfl (by decide +kernel) (by decide) (by decide) (by decide)

example : surface 0 ⟨"waveform", [⟨.other "OFDMWaveform", none⟩]⟩ order (⟨[1, 2], fun _ => 3⟩ : Arr ℚ) = .error .type :=
  C123_objects_fails 0 (by norm_num) _ _ _ ⟨.other "OFDMWaveform", none⟩ (by simp) "OFDMWaveform" rfl

/-- The table of a simulation has four rows, that of its only result none. -/
example : printAll (fun _ => "x") (fun _ (_ : ℚ) => "y") [snr, order] [⟨some true, measured⟩] =
      .ok [["x", "4", "y"], ["x", "16", "y"], ["x", "4", "y"], ["x", "16", "y"]] ∧
    printOne (fun _ (_ : ℚ) => "y") [snr, order] ⟨some true, measured⟩ = .ok [] := ⟨by rfl, by rfl⟩

/-- The hypotheses of `C123_rows` and `C123_unprinted_fails`. -/
example : ∃ (rows : List (List String)) (i : ℕ) (row : List String), printAll (fun _ => "x") (fun _ (_ : ℚ) => "y") [snr, order] [⟨some true, measured⟩] = .ok rows ∧
    rows[i]? = some row ∧ row[1]? = some "16" := by
  obtain ⟨rows, i, row, h1, -, h2, -, h3, -⟩ := C123_rows (fun _ => "x") (fun _ (_ : ℚ) => "y") [snr, order] [⟨some true, measured⟩]
    (fun _ => true) (by simp [shape, measured, snr, order]) (by simp) [1, 1] (.cons (by decide) (.cons (by decide) .nil))
  exact ⟨rows, i, row, h1, h2, h3 1 order ⟨.int 16, none⟩ rfl rfl⟩

example : printAll (fun _ => "x") (fun _ (_ : ℚ) => "y") [snr, order] [⟨none, measured⟩] = .error .attribute :=
  C123_unprinted_fails _ _ _ _ (by simp [shape, measured, snr, order]) ⟨none, measured⟩ (by simp) rfl [0, 0]
    (.cons (by decide) (.cons (by decide) .nil))

/-- The hypotheses of `C123_saved_partial` and of `C123_saved_fails`. -/
example : (([snr, order] : List Dim).map Dim.title).Nodup ∧ ∀ x ∈ [snr, order], x.title ≠ "dimensions" ∧ x.title ≠ "evaluators" ∧
    x.title ≠ "performance_time" ∧ ∀ r, x.title ≠ key r := by
  refine ⟨by decide, fun x hx => ?_⟩
  have hk : ∀ (r : ℕ) (s : String), s.toList.head? ≠ some 'r' → s ≠ key r := by
    intro r s hs he
    rw [he] at hs
    exact hs (by simp [key])
  simp only [List.mem_cons, List.not_mem_nil, or_false] at hx
  rcases hx with rfl | rfl
  · exact ⟨by decide, by decide, by decide, fun r => hk r _ (by decide)⟩
  · exact ⟨by decide, by decide, by decide, fun r => hk r _ (by decide)⟩

example : find (Result.dict (⟨[snr, ⟨"SNR", [⟨.flt 3, none⟩]⟩], ["BER"], [], 0⟩ : Result ℚ)) "SNR" = some (.points [⟨.flt 3, none⟩]) := by
  rfl

example : shown 20 0 = [0, 1, 2, 3, 4, 5, 6] ∧ shown 20 1 = [7, 8, 9, 10, 11, 12, 13] ∧ shown 20 2 = [14, 15, 16, 17, 18, 19] := by decide

end Verif.Present
