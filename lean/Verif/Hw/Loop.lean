import Verif.Np
import Mathlib.Data.List.Nodup
import Mathlib.Data.List.Count
import Mathlib.Algebra.BigOperators.Group.List.Basic
import Mathlib.Tactic.Ring

/-!
# Hardware loops (C115)

Model of `HardwareLoop` (`hermespy/hardware_loop/hardware_loop.py` 466-1009) with `Pipeline` (`core/pipeline.py`) and the handling
of exceptions of `Executable` (`core/executable.py` 309-342).  The scenario with its devices is an arbitrary state; grid
dimensions, hooks, drops and evaluators are arbitrary state transformers that may raise.  Signals (`SIGINT`) and the answers of
the user arrive at arbitrary times.  Not modelled: console output, plots (C117), files; the accumulators of the evaluators
are logs of the artifacts they are given.
-/

namespace Verif.HwLoop

/-- `GridDimension` as far as the loop uses it, `core/pymonte/grid.py` 217-224 and 418-434: number of sample points and the setters
called by `configure_point`. -/
structure Dim (S : Type) where
  points : ℕ
  set : ℕ → S → S × Option PyErr

/-- `GridDimension.configure_point`, `core/pymonte/grid.py` 418-434. -/
def Dim.configure {S : Type} (d : Dim S) (i : ℕ) (s : S) : S × Option PyErr :=
  if d.points ≤ i then (s, some .value) else d.set i s

/-- `IterationPriority`, `hardware_loop/hardware_loop.py` 58-65. -/
inductive Priority
  | drops
  | grid
  deriving DecidableEq

/-- A configured loop: `S` are the states of the scenario, `D` drops, `E` evaluations and `A` artifacts,
`hardware_loop/hardware_loop.py` 466-531. -/
structure Loop (S D E A : Type) where
  numDrops : ℕ
  dims : List (Dim S)
  drop : S → S × Except PyErr D
  evals : List (S → S × Except PyErr E)
  artifact : E → Except PyErr A
  pre : List (S → S × Option PyErr)
  post : List (D → List A → S → S × Option PyErr)
  priority : Priority
  debug : Bool
  manual : Bool

/-- Calls in sequence up to the first exception. -/
def calls {S : Type} : List (S → S × Option PyErr) → S → S × Option PyErr
  | [], s => (s, none)
  | f :: fs, s =>
    match (f s).2 with
    | some e => ((f s).1, some e)
    | none => calls fs (f s).1

/-- `[e.evaluate() for e in self.evaluators]`, `hardware_loop/hardware_loop.py` 836. -/
def evaluate {S E : Type} : List (S → S × Except PyErr E) → S → S × Except PyErr (List E)
  | [], s => (s, .ok [])
  | f :: fs, s =>
    match (f s).2 with
    | .error e => ((f s).1, .error e)
    | .ok x =>
      match (evaluate fs (f s).1).2 with
      | .error e => ((evaluate fs (f s).1).1, .error e)
      | .ok xs => ((evaluate fs (f s).1).1, .ok (x :: xs))

/-- `[e.artifact() for e in evaluations]`, `hardware_loop/hardware_loop.py` 837. -/
def artifacts {E A : Type} (f : E → Except PyErr A) : List E → Except PyErr (List A)
  | [] => .ok []
  | x :: xs =>
    match f x with
    | .error e => .error e
    | .ok a =>
      match artifacts f xs with
      | .error e => .error e
      | .ok as => .ok (a :: as)

/-- `HardwareLoop.__generate_sample`, `hardware_loop/hardware_loop.py` 812-840. -/
def sample {S D E A : Type} (l : Loop S D E A) (σ : List ℕ) (s : S) : S × Except PyErr (D × List A) :=
  match (calls (List.zipWith Dim.configure l.dims σ) s).2 with
  | some e => ((calls (List.zipWith Dim.configure l.dims σ) s).1, .error e)
  | none =>
    match (l.drop (calls (List.zipWith Dim.configure l.dims σ) s).1).2 with
    | .error e => ((l.drop (calls (List.zipWith Dim.configure l.dims σ) s).1).1, .error e)
    | .ok d =>
      match (evaluate l.evals (l.drop (calls (List.zipWith Dim.configure l.dims σ) s).1).1).2 with
      | .error e => ((evaluate l.evals (l.drop (calls (List.zipWith Dim.configure l.dims σ) s).1).1).1, .error e)
      | .ok xs => ((evaluate l.evals (l.drop (calls (List.zipWith Dim.configure l.dims σ) s).1).1).1,
          match artifacts l.artifact xs with
          | .error e => .error e
          | .ok as => .ok (d, as))

/-- State of a run: scenario, one log of sections and artifacts per evaluator, and `total`. -/
structure St (S A : Type) where
  scene : S
  logs : List (List (List ℕ × A))
  total : ℕ

/-- `evaluation_result.add_artifact(section_indices, artifact)` for all evaluators, `hardware_loop/hardware_loop.py` 966-967. -/
def addAll {A : Type} (σ : List ℕ) : List (List (List ℕ × A)) → List A → List (List (List ℕ × A))
  | r :: rs, a :: as => (r ++ [(σ, a)]) :: addAll σ rs as
  | rs, _ => rs

/-- One pass of the loop without its exception handler, `hardware_loop/hardware_loop.py` 959-994. -/
def attempt {S D E A : Type} (l : Loop S D E A) (σ : List ℕ) (t : St S A) : St S A × Option PyErr :=
  match (calls l.pre t.scene).2 with
  | some e => ({ t with scene := (calls l.pre t.scene).1 }, some e)
  | none =>
    match (sample l σ (calls l.pre t.scene).1).2 with
    | .error e => ({ t with scene := (sample l σ (calls l.pre t.scene).1).1 }, some e)
    | .ok (d, as) =>
      (⟨(calls (l.post.map fun h => h d as) (sample l σ (calls l.pre t.scene).1).1).1, addAll σ t.logs as, t.total⟩,
        (calls (l.post.map fun h => h d as) (sample l σ (calls l.pre t.scene).1).1).2)

/-- The loop over the indices, `hardware_loop/hardware_loop.py` 940-1006: `sig n` tells if the run was interrupted before pass
`n`, `ask n` is the user's answer before pass `n`.  In debug mode exceptions are raised again, `core/executable.py` 329-330. -/
def passes {S D E A : Type} (l : Loop S D E A) (sig ask : ℕ → Bool) : List (List ℕ × ℕ) → St S A → St S A × Option PyErr
  | [], t => (t, none)
  | (σ, _) :: is, t =>
    if sig t.total then (t, none)
    else if l.manual && !ask t.total then (t, none)
    else
      match (attempt l σ t).2 with
      | some e =>
        if l.debug then ((attempt l σ t).1, some e)
        else passes l sig ask is { (attempt l σ t).1 with total := t.total + 1 }
      | none => passes l sig ask is { (attempt l σ t).1 with total := t.total + 1 }

/-- `np.ndindex`. -/
def ndindex : List ℕ → List (List ℕ)
  | [] => [[]]
  | n :: ns => (List.range n).flatMap fun (i : ℕ) => (ndindex ns).map (i :: ·)

/-- Sections and sample indices in the order of the run, `hardware_loop/hardware_loop.py` 923-946. -/
def schedule (p : Priority) (points : List ℕ) (numDrops : ℕ) : List (List ℕ × ℕ) :=
  match p with
  | .grid => (ndindex (numDrops :: points)).map fun i => ((i.drop 1).take points.length, i.getD 0 0)
  | .drops => (ndindex (points ++ [numDrops])).map fun i => (i.take points.length, i.getD points.length 0)

/-- `HardwareLoop.__run`, `hardware_loop/hardware_loop.py` 851-1009. -/
def execute {S D E A : Type} (l : Loop S D E A) (sig ask : ℕ → Bool) (s : S) : St S A × Option PyErr :=
  passes l sig ask (schedule l.priority (l.dims.map Dim.points) l.numDrops) ⟨s, List.replicate l.evals.length [], 0⟩

/-! ### Lemmas -/

/-- `σ` is a section of the grid. -/
def Section (points σ : List ℕ) : Prop := List.Forall₂ (fun n i => i < n) points σ

theorem mem_ndindex (points σ : List ℕ) : σ ∈ ndindex points ↔ Section points σ := by
  induction points generalizing σ with
  | nil =>
    simp only [ndindex, List.mem_singleton, Section]
    constructor
    · rintro rfl; exact .nil
    · intro h; cases h; rfl
  | cons n ns ih =>
    simp only [ndindex, List.mem_flatMap, List.mem_range, List.mem_map, Section]
    constructor
    · rintro ⟨i, hi, τ, hτ, rfl⟩
      exact .cons hi ((ih τ).mp hτ)
    · intro h
      cases h with
      | cons hi ht => exact ⟨_, hi, _, (ih _).mpr ht, rfl⟩

theorem nodup_ndindex (points : List ℕ) : (ndindex points).Nodup := by
  induction points with
  | nil => simp [ndindex]
  | cons n ns ih =>
    unfold ndindex
    rw [List.nodup_flatMap]
    refine ⟨fun i _ => ih.map fun a b h => by injection h, ?_⟩
    apply List.Pairwise.imp _ (List.nodup_range (n := n))
    intro a b hab
    rw [Function.onFun, List.disjoint_left]
    intro x hx hy
    obtain ⟨u, _, rfl⟩ := List.mem_map.mp hx
    obtain ⟨v, _, h⟩ := List.mem_map.mp hy
    injection h with h
    exact hab h.symm

theorem lex_ndindex (points : List ℕ) : (ndindex points).Pairwise (List.Lex (· < ·)) := by
  induction points with
  | nil => simp [ndindex]
  | cons n ns ih =>
    unfold ndindex
    rw [List.pairwise_flatMap]
    refine ⟨fun i _ => ?_, ?_⟩
    · rw [List.pairwise_map]
      exact List.Pairwise.imp (fun h => List.Lex.cons h) ih
    · apply List.Pairwise.imp _ (List.pairwise_lt_range (n := n))
      intro a b hab x hx y hy
      obtain ⟨u, _, rfl⟩ := List.mem_map.mp hx
      obtain ⟨v, _, rfl⟩ := List.mem_map.mp hy
      exact .rel hab

theorem length_ndindex (points : List ℕ) : (ndindex points).length = points.prod := by
  induction points with
  | nil => rfl
  | cons n ns ih =>
    simp only [ndindex, List.length_flatMap, List.length_map, ih, List.prod_cons]
    simp

theorem section_length {points σ : List ℕ} (h : Section points σ) : σ.length = points.length :=
  (List.Forall₂.length_eq h).symm

theorem ndindex_append (points : List ℕ) (n : ℕ) :
    ndindex (points ++ [n]) = (ndindex points).flatMap fun σ => (List.range n).map fun (k : ℕ) => σ ++ [k] := by
  induction points with
  | nil => simp [ndindex, List.flatMap]; induction List.range n <;> simp_all
  | cons m ms ih =>
    simp only [List.cons_append, ndindex, ih, List.flatMap_assoc, List.map_flatMap, List.flatMap_map, List.map_map]
    rfl

/-- The order of the run. -/
theorem schedule_drops (points : List ℕ) (n : ℕ) :
    schedule .drops points n = (ndindex points).flatMap fun σ => (List.range n).map fun (k : ℕ) => (σ, k) := by
  unfold schedule
  simp only
  rw [ndindex_append, List.map_flatMap]
  apply List.flatMap_congr
  intro σ hσ
  rw [List.map_map]
  apply List.map_congr_left
  intro k _
  have hl := section_length ((mem_ndindex _ _).mp hσ)
  simp [← hl]

theorem schedule_grid (points : List ℕ) (n : ℕ) :
    schedule .grid points n = (List.range n).flatMap fun (k : ℕ) => (ndindex points).map fun σ => (σ, k) := by
  unfold schedule
  simp only [ndindex, List.map_flatMap, List.map_map]
  apply List.flatMap_congr
  intro k _
  apply List.map_congr_left
  intro σ hσ
  have hl := section_length ((mem_ndindex _ _).mp hσ)
  simp [← hl]

theorem mem_schedule (p : Priority) (points : List ℕ) (n : ℕ) (σ : List ℕ) (k : ℕ) :
    (σ, k) ∈ schedule p points n ↔ Section points σ ∧ k < n := by
  cases p with
  | drops =>
    rw [schedule_drops]
    simp only [List.mem_flatMap, List.mem_map, List.mem_range, Prod.mk.injEq, mem_ndindex]
    constructor
    · rintro ⟨τ, hτ, j, hj, rfl, rfl⟩; exact ⟨hτ, hj⟩
    · rintro ⟨h1, h2⟩; exact ⟨σ, h1, k, h2, rfl, rfl⟩
  | grid =>
    rw [schedule_grid]
    simp only [List.mem_flatMap, List.mem_map, List.mem_range, Prod.mk.injEq, mem_ndindex]
    constructor
    · rintro ⟨j, hj, τ, hτ, rfl, rfl⟩; exact ⟨hτ, hj⟩
    · rintro ⟨h1, h2⟩; exact ⟨k, h2, σ, h1, rfl, rfl⟩

theorem nodup_schedule (p : Priority) (points : List ℕ) (n : ℕ) : (schedule p points n).Nodup := by
  cases p with
  | drops =>
    rw [schedule_drops, List.nodup_flatMap]
    refine ⟨fun σ _ => (List.nodup_range).map fun a b h => by injection h, ?_⟩
    apply List.Pairwise.imp _ (nodup_ndindex points)
    intro a b hab
    rw [Function.onFun, List.disjoint_left]
    intro x hx hy
    obtain ⟨u, _, rfl⟩ := List.mem_map.mp hx
    obtain ⟨v, _, h⟩ := List.mem_map.mp hy
    injection h with h
    exact hab h.symm
  | grid =>
    rw [schedule_grid, List.nodup_flatMap]
    refine ⟨fun σ _ => (nodup_ndindex points).map fun a b h => by injection h, ?_⟩
    apply List.Pairwise.imp _ (List.nodup_range (n := n))
    intro a b hab
    rw [Function.onFun, List.disjoint_left]
    intro x hx hy
    obtain ⟨u, _, rfl⟩ := List.mem_map.mp hx
    obtain ⟨v, _, h⟩ := List.mem_map.mp hy
    injection h with _ h
    exact hab h.symm

theorem length_schedule (p : Priority) (points : List ℕ) (n : ℕ) : (schedule p points n).length = n * points.prod := by
  cases p with
  | drops => rw [schedule_drops]; simp [List.length_flatMap, length_ndindex, Nat.mul_comm]
  | grid => rw [schedule_grid]; simp [List.length_flatMap, length_ndindex]

/-- How often a section is visited. -/
theorem count_schedule (p : Priority) (points : List ℕ) (n : ℕ) (σ : List ℕ) (h : Section points σ) :
    ((schedule p points n).map Prod.fst).count σ = n := by
  have h1 : (ndindex points).count σ = 1 := List.count_eq_one_of_mem (nodup_ndindex points) ((mem_ndindex _ _).mpr h)
  cases p with
  | drops =>
    rw [schedule_drops, List.map_flatMap, List.count_flatMap]
    have : (List.count σ ∘ fun τ => ((List.range n).map fun (k : ℕ) => (τ, k)).map Prod.fst) =
        fun τ : List ℕ => if τ = σ then n else 0 := by
      funext τ
      simp only [Function.comp, List.map_map]
      rw [show (Prod.fst ∘ fun (k : ℕ) => (τ, k)) = fun _ => τ from rfl, List.map_const', List.length_range, List.count_replicate]
      by_cases hτ : τ = σ <;> simp [hτ]
    rw [this]
    have h2 : ∀ l : List (List ℕ), (l.map fun τ : List ℕ => if τ = σ then n else 0).sum = l.count σ * n := by
      intro l
      induction l with
      | nil => simp
      | cons τ l ih =>
        rw [List.map_cons, List.sum_cons, ih, List.count_cons]
        by_cases hτ : τ = σ
        · simp [hτ, Nat.add_mul, Nat.add_comm]
        · simp [hτ]
    rw [h2, h1, Nat.one_mul]
  | grid =>
    rw [schedule_grid, List.map_flatMap, List.count_flatMap]
    have : (List.count σ ∘ fun (k : ℕ) => ((ndindex points).map fun τ => (τ, k)).map Prod.fst) = fun _ => 1 := by
      funext k
      simp only [Function.comp, List.map_map]
      rw [show (Prod.fst ∘ fun τ : List ℕ => (τ, k)) = id from rfl, List.map_id, h1]
    rw [this]
    simp

theorem evaluate_length {S E : Type} (fs : List (S → S × Except PyErr E)) (s : S) (xs : List E)
    (h : (evaluate fs s).2 = .ok xs) : xs.length = fs.length := by
  induction fs generalizing s xs with
  | nil => simp only [evaluate, Except.ok.injEq] at h; subst h; rfl
  | cons f fs ih =>
    unfold evaluate at h
    split at h
    · simp at h
    · split at h
      · simp at h
      · rename_i ys hys
        simp only [Except.ok.injEq] at h
        subst h
        simp [ih _ _ hys]

theorem artifacts_length {E A : Type} (f : E → Except PyErr A) (xs : List E) (as : List A)
    (h : artifacts f xs = .ok as) : as.length = xs.length := by
  induction xs generalizing as with
  | nil => simp only [artifacts, Except.ok.injEq] at h; subst h; rfl
  | cons x xs ih =>
    unfold artifacts at h
    split at h
    · simp at h
    · split at h
      · simp at h
      · rename_i ys hys
        simp only [Except.ok.injEq] at h
        subst h
        simp [ih _ hys]

/-- What a successful sample went through. -/
theorem sample_ok {S D E A : Type} (l : Loop S D E A) (σ : List ℕ) (s : S) (d : D) (as : List A)
    (h : (sample l σ s).2 = .ok (d, as)) :
    (calls (List.zipWith Dim.configure l.dims σ) s).2 = none ∧
      (l.drop (calls (List.zipWith Dim.configure l.dims σ) s).1).2 = .ok d ∧
        ∃ xs, (evaluate l.evals (l.drop (calls (List.zipWith Dim.configure l.dims σ) s).1).1).2 = .ok xs ∧
          artifacts l.artifact xs = .ok as := by
  unfold sample at h
  split at h
  · simp at h
  · rename_i h1
    split at h
    · simp at h
    · rename_i d' h2
      split at h
      · simp at h
      · rename_i xs h3
        simp only at h
        split at h
        · simp at h
        · rename_i as' h4
          simp only [Except.ok.injEq, Prod.mk.injEq] at h
          obtain ⟨rfl, rfl⟩ := h
          exact ⟨h1, h2, xs, h3, h4⟩

theorem sample_length {S D E A : Type} (l : Loop S D E A) (σ : List ℕ) (s : S) (d : D) (as : List A)
    (h : (sample l σ s).2 = .ok (d, as)) : as.length = l.evals.length := by
  obtain ⟨_, _, xs, h3, h4⟩ := sample_ok l σ s d as h
  rw [artifacts_length _ _ _ h4, evaluate_length _ _ _ h3]

theorem addAll_length {A : Type} (σ : List ℕ) (rs : List (List (List ℕ × A))) (as : List A) :
    (addAll σ rs as).length = rs.length := by
  induction rs generalizing as with
  | nil => cases as <;> rfl
  | cons r rs ih => cases as with
    | nil => rfl
    | cons a as => simp [addAll, ih]

theorem addAll_get {A : Type} (σ : List ℕ) (rs : List (List (List ℕ × A))) (as : List A) (n : ℕ)
    (r : List (List ℕ × A)) (h : (addAll σ rs as)[n]? = some r) (hl : as.length = rs.length) :
    ∃ r' a, rs[n]? = some r' ∧ as[n]? = some a ∧ r = r' ++ [(σ, a)] := by
  induction rs generalizing as n with
  | nil => cases as <;> simp [addAll] at h
  | cons q rs ih =>
    cases as with
    | nil => simp at hl
    | cons a as =>
      cases n with
      | zero =>
        simp only [addAll, List.getElem?_cons_zero, Option.some.injEq] at h
        exact ⟨q, a, rfl, rfl, h.symm⟩
      | succ n =>
        simp only [addAll, List.getElem?_cons_succ] at h ⊢
        exact ih as n h (by simpa using hl)

/-- A pass either leaves the logs alone, or appends one artifact of its section to every log. -/
theorem attempt_logs {S D E A : Type} (l : Loop S D E A) (σ : List ℕ) (t : St S A) :
    (attempt l σ t).1.logs = t.logs ∧ (attempt l σ t).2 ≠ none ∨
      ∃ s d as, (sample l σ s).2 = .ok (d, as) ∧ (attempt l σ t).1.logs = addAll σ t.logs as := by
  unfold attempt
  split
  · exact .inl ⟨rfl, by simp⟩
  · split
    · exact .inl ⟨rfl, by simp⟩
    · rename_i d as h
      exact .inr ⟨_, d, as, h, rfl⟩

/-- Invariants of the logs hold after every run. -/
theorem passes_inv {S D E A : Type} (l : Loop S D E A) (sig ask : ℕ → Bool) (I : List (List (List ℕ × A)) → Prop)
    (is : List (List ℕ × ℕ)) (t : St S A)
    (hI : ∀ σ k, (σ, k) ∈ is → ∀ s d as rs, (sample l σ s).2 = .ok (d, as) → I rs → I (addAll σ rs as))
    (h : I t.logs) : I (passes l sig ask is t).1.logs := by
  induction is generalizing t with
  | nil => exact h
  | cons i is ih =>
    obtain ⟨σ, k⟩ := i
    have h1 : I (attempt l σ t).1.logs := by
      rcases attempt_logs l σ t with ⟨e, _⟩ | ⟨s, d, as, hs, e⟩
      · rw [e]; exact h
      · rw [e]; exact hI σ k List.mem_cons_self s d as t.logs hs h
    have h2 := fun (t : St S A) => ih t fun σ k hm => hI σ k (List.mem_cons_of_mem _ hm)
    unfold passes
    split
    · exact h
    · split
      · exact h
      · split
        · split
          · exact h1
          · exact h2 _ h1
        · exact h2 _ h1

theorem map_addAll {A : Type} (σ : List ℕ) (rs : List (List (List ℕ × A))) (as : List A) (τ : List (List ℕ))
    (hl : as.length = rs.length) (h : ∀ r ∈ rs, r.map Prod.fst = τ) : ∀ r ∈ addAll σ rs as, r.map Prod.fst = τ ++ [σ] := by
  intro r hr
  obtain ⟨n, hn⟩ := List.mem_iff_getElem?.mp hr
  obtain ⟨r', a, h1, _, rfl⟩ := addAll_get σ rs as n r hn hl
  simp [h r' (List.mem_of_getElem? h1)]

/-- Every log holds the same sections, in the order of the run, and no section that was not visited. -/
theorem passes_aligned {S D E A : Type} (l : Loop S D E A) (sig ask : ℕ → Bool) (is : List (List ℕ × ℕ)) (t : St S A)
    (τ : List (List ℕ)) (hl : t.logs.length = l.evals.length) (h : ∀ r ∈ t.logs, r.map Prod.fst = τ) :
    ∃ τ', τ'.Sublist (is.map Prod.fst) ∧ ∀ r ∈ (passes l sig ask is t).1.logs, r.map Prod.fst = τ ++ τ' := by
  induction is generalizing t τ with
  | nil => exact ⟨[], List.Sublist.refl _, by simpa [passes] using h⟩
  | cons i is ih =>
    obtain ⟨σ, k⟩ := i
    have h1 : ∃ τ₁, τ₁.Sublist [σ] ∧ (attempt l σ t).1.logs.length = l.evals.length ∧
        ∀ r ∈ (attempt l σ t).1.logs, r.map Prod.fst = τ ++ τ₁ := by
      rcases attempt_logs l σ t with ⟨e, _⟩ | ⟨s, d, as, hs, e⟩
      · exact ⟨[], List.nil_sublist _, by rw [e]; exact hl, by rw [e]; simpa using h⟩
      · have := sample_length l σ s d as hs
        exact ⟨[σ], List.Sublist.refl _, by rw [e, addAll_length]; exact hl,
          by rw [e]; exact map_addAll σ t.logs as τ (by omega) h⟩
    obtain ⟨τ₁, hs, hl1, hm⟩ := h1
    have h2 : ∀ n : ℕ, ∃ τ', τ'.Sublist (σ :: is.map Prod.fst) ∧
        ∀ r ∈ (passes l sig ask is { (attempt l σ t).1 with total := n }).1.logs, r.map Prod.fst = τ ++ τ' := by
      intro n
      obtain ⟨τ₂, hs2, hm2⟩ := ih { (attempt l σ t).1 with total := n } (τ ++ τ₁) hl1 hm
      refine ⟨τ₁ ++ τ₂, ?_, by simpa using hm2⟩
      have := hs.append hs2
      simpa using this
    have h0 : ∃ τ', τ'.Sublist (σ :: is.map Prod.fst) ∧ ∀ r ∈ t.logs, r.map Prod.fst = τ ++ τ' :=
      ⟨[], List.nil_sublist _, by simpa using h⟩
    simp only [List.map_cons]
    unfold passes
    split
    · exact h0
    · split
      · exact h0
      · split
        · split
          · exact ⟨τ₁, hs.trans (List.Sublist.cons_cons _ (List.nil_sublist _)), hm⟩
          · exact h2 _
        · exact h2 _

theorem attempt_good {S D E A : Type} (l : Loop S D E A) (σ : List ℕ) (t : St S A) (d : D) (as : List A)
    (hp : (calls l.pre t.scene).2 = none) (hg : (sample l σ (calls l.pre t.scene).1).2 = .ok (d, as)) :
    (attempt l σ t).1.logs = addAll σ t.logs as := by
  unfold attempt
  rw [hp, hg]

/-- Without interrupts and outside of debug mode a run takes all passes, whatever raises. -/
theorem passes_total {S D E A : Type} (l : Loop S D E A) (hd : l.debug = false) (ask : ℕ → Bool)
    (ha : l.manual = true → ∀ n, ask n = true) (is : List (List ℕ × ℕ)) (t : St S A) :
    (passes l (fun _ => false) ask is t).2 = none ∧ (passes l (fun _ => false) ask is t).1.total = t.total + is.length := by
  induction is generalizing t with
  | nil => exact ⟨rfl, rfl⟩
  | cons i is ih =>
    obtain ⟨σ, k⟩ := i
    have hm : (l.manual && !ask t.total) = false := by
      cases h : l.manual
      · rfl
      · simp [ha h]
    unfold passes
    simp only [hm, hd, Bool.false_eq_true, if_false, List.length_cons]
    split
    · obtain ⟨h1, h2⟩ := ih { (attempt l σ t).1 with total := t.total + 1 }
      exact ⟨h1, by rw [h2]; simp only; omega⟩
    · obtain ⟨h1, h2⟩ := ih { (attempt l σ t).1 with total := t.total + 1 }
      exact ⟨h1, by rw [h2]; simp only; omega⟩

/-- Sections whose drops succeed are logged on each visit. -/
theorem passes_good {S D E A : Type} (l : Loop S D E A) (hd : l.debug = false) (ask : ℕ → Bool)
    (ha : l.manual = true → ∀ n, ask n = true) (σ : List ℕ)
    (hp : ∀ s, (calls l.pre s).2 = none) (hg : ∀ s, ∃ d as, (sample l σ s).2 = .ok (d, as))
    (is : List (List ℕ × ℕ)) (t : St S A) (hl : t.logs.length = l.evals.length) (c : ℕ)
    (h : ∀ r ∈ t.logs, (r.map Prod.fst).count σ = c) :
    ∀ r ∈ (passes l (fun _ => false) ask is t).1.logs,
      (r.map Prod.fst).count σ = c + (is.map Prod.fst).count σ := by
  induction is generalizing t c with
  | nil => simpa [passes] using h
  | cons i is ih =>
    obtain ⟨τ, k⟩ := i
    have hadd : ∀ as : List A, as.length = l.evals.length → (attempt l τ t).1.logs = addAll τ t.logs as →
        (attempt l τ t).1.logs.length = l.evals.length ∧
          ∀ r ∈ (attempt l τ t).1.logs, (r.map Prod.fst).count σ = c + [τ].count σ := by
      intro as hlen e
      refine ⟨by rw [e, addAll_length]; exact hl, ?_⟩
      rw [e]
      intro r hr
      obtain ⟨n, hn⟩ := List.mem_iff_getElem?.mp hr
      obtain ⟨r', a, h1, _, rfl⟩ := addAll_get τ t.logs as n r hn (by omega)
      simp [List.count_append, h r' (List.mem_of_getElem? h1)]
    have h1 : (attempt l τ t).1.logs.length = l.evals.length ∧
        ∀ r ∈ (attempt l τ t).1.logs, (r.map Prod.fst).count σ = c + [τ].count σ := by
      by_cases hτ : τ = σ
      · obtain ⟨d, as, hs⟩ := hg (calls l.pre t.scene).1
        rw [← hτ] at hs
        exact hadd as (sample_length l τ _ d as hs) (attempt_good l τ t d as (hp _) hs)
      · rcases attempt_logs l τ t with ⟨e, _⟩ | ⟨s, d, as, hs, e⟩
        · refine ⟨by rw [e]; exact hl, ?_⟩
          rw [e]; simpa [List.count_cons, hτ] using h
        · exact hadd as (sample_length l τ s d as hs) e
    have hm : (l.manual && !ask t.total) = false := by
      cases h : l.manual
      · rfl
      · simp [ha h]
    have h2 := ih { (attempt l τ t).1 with total := t.total + 1 } h1.1 (c + [τ].count σ) h1.2
    have e : c + [τ].count σ + (is.map Prod.fst).count σ = c + (((τ, k) :: is).map Prod.fst).count σ := by
      simp only [List.map_cons, List.count_cons, List.count_nil]; omega
    rw [e] at h2
    unfold passes
    simp only [hm, hd, Bool.false_eq_true, if_false]
    split
    · exact h2
    · exact h2

/-- Configuring a section sets each parameter, if the dimensions do not touch each other's parameters. -/
theorem configured {S : Type} (P : ℕ → ℕ → S → Prop) (ds : List (Dim S)) (m : ℕ) (σ : List ℕ) (hl : σ.length = ds.length)
    (hset : ∀ i d, ds[i]? = some d → ∀ v s, v < d.points → (d.set v s).2 = none → P (m + i) v (d.set v s).1)
    (hkeep : ∀ i d, ds[i]? = some d → ∀ v s j u, j ≠ m + i → P j u s → P j u (d.set v s).1) (s : S)
    (h : (calls (List.zipWith Dim.configure ds σ) s).2 = none) :
    (∀ i v, σ[i]? = some v → P (m + i) v (calls (List.zipWith Dim.configure ds σ) s).1) ∧
      ∀ j u, j < m → P j u s → P j u (calls (List.zipWith Dim.configure ds σ) s).1 := by
  induction ds generalizing m σ s with
  | nil =>
    have : σ = [] := List.length_eq_zero_iff.mp hl
    subst this
    exact ⟨by simp, fun j u _ h => h⟩
  | cons d ds ih =>
    cases σ with
    | nil => simp at hl
    | cons v σ =>
      simp only [List.zipWith_cons_cons, calls] at h ⊢
      have hlt : v < d.points := by
        by_contra hc
        have hc : d.points ≤ v := by omega
        simp [Dim.configure, hc] at h
      have hc : Dim.configure d v s = d.set v s := by simp [Dim.configure, Nat.not_le.mpr hlt]
      rw [hc] at h ⊢
      cases hn : (d.set v s).2 with
      | some e => rw [hn] at h; simp at h
      | none =>
        rw [hn] at h
        simp only at h ⊢
        have hi := ih (m + 1) σ (by simpa using hl)
          (fun i d' hd' => by
            have := hset (i + 1) d' (by simpa using hd')
            rwa [show m + (i + 1) = m + 1 + i by omega] at this)
          (fun i d' hd' => by
            have := hkeep (i + 1) d' (by simpa using hd')
            rwa [show m + (i + 1) = m + 1 + i by omega] at this) _ h
        constructor
        · intro i w hw
          cases i with
          | zero =>
            simp only [List.getElem?_cons_zero, Option.some.injEq] at hw
            subst hw
            exact hi.2 m v (by omega) (hset 0 d rfl v s hlt hn)
          | succ i =>
            have := hi.1 i w (by simpa using hw)
            rwa [show m + 1 + i = m + (i + 1) by omega] at this
        · intro j u hj hP
          exact hi.2 j u (by omega) (hkeep 0 d rfl v s j u (by omega) hP)

/-- Each evaluation is taken in a state that only other evaluations may have touched. -/
theorem evaluate_get {S E : Type} (F : S → Prop) (fs : List (S → S × Except PyErr E)) (hF : ∀ f ∈ fs, ∀ s, F s → F (f s).1)
    (s : S) (hs : F s) (xs : List E) (h : (evaluate fs s).2 = .ok xs) (n : ℕ) (x : E) (hx : xs[n]? = some x) :
    ∃ f s', fs[n]? = some f ∧ F s' ∧ (f s').2 = .ok x := by
  induction fs generalizing s xs n with
  | nil => simp only [evaluate, Except.ok.injEq] at h; subst h; simp at hx
  | cons f fs ih =>
    unfold evaluate at h
    split at h
    · simp at h
    · rename_i y hy
      split at h
      · simp at h
      · rename_i ys hys
        simp only [Except.ok.injEq] at h
        subst h
        cases n with
        | zero =>
          simp only [List.getElem?_cons_zero, Option.some.injEq] at hx
          subst hx
          exact ⟨f, s, rfl, hs, hy⟩
        | succ n =>
          simp only [List.getElem?_cons_succ] at hx ⊢
          exact ih (fun g hg => hF g (List.mem_cons_of_mem _ hg)) _ (hF f List.mem_cons_self s hs) ys hys n hx

theorem artifacts_get {E A : Type} (f : E → Except PyErr A) (xs : List E) (as : List A) (h : artifacts f xs = .ok as) (n : ℕ)
    (a : A) (ha : as[n]? = some a) : ∃ x, xs[n]? = some x ∧ f x = .ok a := by
  induction xs generalizing as n with
  | nil => simp only [artifacts, Except.ok.injEq] at h; subst h; simp at ha
  | cons x xs ih =>
    unfold artifacts at h
    split at h
    · simp at h
    · rename_i b hb
      split at h
      · simp at h
      · rename_i bs hbs
        simp only [Except.ok.injEq] at h
        subst h
        cases n with
        | zero =>
          simp only [List.getElem?_cons_zero, Option.some.injEq] at ha
          subst ha
          exact ⟨x, rfl, hb⟩
        | succ n => simpa using ih bs hbs n (by simpa using ha)

/-! ### Theorems -/

/-- **Schedule.**  Under either priority each sample of each section of the grid is visited exactly once, and nothing else is. -/
theorem C115_schedule (p : Priority) (points : List ℕ) (n : ℕ) :
    (schedule p points n).Nodup ∧
      (∀ σ k, (σ, k) ∈ schedule p points n ↔ List.Forall₂ (fun m i => i < m) points σ ∧ k < n) ∧
        (schedule p points n).length = n * points.prod :=
  ⟨nodup_schedule p points n, mem_schedule p points n, length_schedule p points n⟩

/-- **Order.**  Priority `DROPS` takes all drops of a section before the next section, priority `GRID` sweeps the whole grid before
the next drop; sections are visited in lexicographic order. -/
theorem C115_order (points : List ℕ) (n : ℕ) :
    (schedule .drops points n).Pairwise (fun a b => List.Lex (· < ·) a.1 b.1 ∨ a.1 = b.1 ∧ a.2 < b.2) ∧
      (schedule .grid points n).Pairwise (fun a b => a.2 < b.2 ∨ a.2 = b.2 ∧ List.Lex (· < ·) a.1 b.1) := by
  constructor
  · rw [schedule_drops, List.pairwise_flatMap]
    refine ⟨fun a _ => ?_, ?_⟩
    · rw [List.pairwise_map]
      exact List.Pairwise.imp (fun {u v} h => Or.inr ⟨rfl, h⟩) (List.pairwise_lt_range (n := n))
    · apply List.Pairwise.imp _ (lex_ndindex points)
      intro a b hab x hx y hy
      obtain ⟨u, _, rfl⟩ := List.mem_map.mp hx
      obtain ⟨v, _, rfl⟩ := List.mem_map.mp hy
      exact .inl hab
  · rw [schedule_grid, List.pairwise_flatMap]
    refine ⟨fun a _ => ?_, ?_⟩
    · rw [List.pairwise_map]
      exact List.Pairwise.imp (fun {u v} h => Or.inr ⟨rfl, h⟩) (lex_ndindex points)
    · apply List.Pairwise.imp _ (List.pairwise_lt_range (n := n))
      intro a b hab x hx y hy
      obtain ⟨u, _, rfl⟩ := List.mem_map.mp hx
      obtain ⟨v, _, rfl⟩ := List.mem_map.mp hy
      exact .inl hab

/-- **All drops are taken, and failures stay where they are.**  Outside of debug mode a run that is not interrupted never raises
and takes every drop, whatever raises meanwhile; and a section whose drops succeed has exactly `num_drops` artifacts in
the result of every evaluator, no matter what the drops of other sections or the post-drop hooks raise. -/
theorem C115_isolated {S D E A : Type} (l : Loop S D E A) (hd : l.debug = false) (ask : ℕ → Bool)
    (ha : l.manual = true → ∀ n, ask n = true) (s : S) :
    (execute l (fun _ => false) ask s).2 = none ∧
      (execute l (fun _ => false) ask s).1.total = l.numDrops * (l.dims.map Dim.points).prod ∧
      ∀ σ, List.Forall₂ (fun (d : Dim S) i => i < d.points) l.dims σ → (∀ s, (calls l.pre s).2 = none) →
        (∀ s, ∃ d as, (sample l σ s).2 = .ok (d, as)) →
          ∀ r ∈ (execute l (fun _ => false) ask s).1.logs, (r.map Prod.fst).count σ = l.numDrops := by
  obtain ⟨h1, h2⟩ := passes_total l hd ask ha (schedule l.priority (l.dims.map Dim.points) l.numDrops)
    ⟨s, List.replicate l.evals.length [], 0⟩
  refine ⟨h1, by unfold execute; rw [h2, length_schedule]; simp, ?_⟩
  intro σ hσ hp hg r hr
  have hσ' : Section (l.dims.map Dim.points) σ := by
    unfold Section
    rw [List.forall₂_map_left_iff]
    exact hσ
  have := passes_good l hd ask ha σ hp hg (schedule l.priority (l.dims.map Dim.points) l.numDrops)
    ⟨s, List.replicate l.evals.length [], 0⟩ (by simp) 0 (by
      intro r hr
      obtain ⟨_, rfl⟩ := List.mem_replicate.mp hr
      rfl) r hr
  rw [this, count_schedule _ _ _ _ hσ', Nat.zero_add]

/-- **Results are aligned.**  In every run - interrupted, with exceptions, in debug mode - there is one result per evaluator, all
results hold artifacts of the same drops in the same order, every artifact belongs to a section of the grid and no section
has more than `num_drops` artifacts. -/
theorem C115_aligned {S D E A : Type} (l : Loop S D E A) (sig ask : ℕ → Bool) (s : S) :
    (execute l sig ask s).1.logs.length = l.evals.length ∧
      ∃ τ, (∀ r ∈ (execute l sig ask s).1.logs, r.map Prod.fst = τ) ∧
        ∀ σ ∈ τ, List.Forall₂ (fun (d : Dim S) i => i < d.points) l.dims σ ∧ τ.count σ ≤ l.numDrops := by
  constructor
  · apply passes_inv l sig ask (fun rs => rs.length = l.evals.length)
    · intro σ k _ s d as rs _ h
      rw [addAll_length]; exact h
    · simp
  · obtain ⟨τ, hs, hm⟩ := passes_aligned l sig ask (schedule l.priority (l.dims.map Dim.points) l.numDrops)
      ⟨s, List.replicate l.evals.length [], 0⟩ [] (by simp) (by
        intro r hr
        obtain ⟨_, rfl⟩ := List.mem_replicate.mp hr
        rfl)
    refine ⟨τ, by simpa [execute] using hm, ?_⟩
    intro σ hσ
    obtain ⟨⟨σ', k⟩, hk, rfl⟩ := List.mem_map.mp (hs.subset hσ)
    have hsec := ((mem_schedule _ _ _ _ _).mp hk).1
    refine ⟨?_, ?_⟩
    · have h := hsec
      unfold Section at h
      rwa [List.forall₂_map_left_iff] at h
    · exact (hs.count_le σ').trans (le_of_eq (count_schedule _ _ _ _ hsec))

/-- **Artifacts belong to their section's parameters.**  `P i v s`: in state `s` the parameter of dimension `i` has its value
`v`; `Fresh σ s`: state `s` holds the receptions of a drop taken under the parameters of `σ`.  If no dimension touches
another one's parameter, drops are taken under the parameters at hand and evaluators leave the receptions alone, then in
every run - whatever the hooks do, whatever raises, whenever it is interrupted - each artifact stored under a
section was evaluated from receptions taken under that section's parameters. -/
theorem C115_parameters {S D E A : Type} (l : Loop S D E A) (P : ℕ → ℕ → S → Prop) (Fresh : List ℕ → S → Prop)
    (hset : ∀ i d, l.dims[i]? = some d → ∀ v s, v < d.points → (d.set v s).2 = none → P i v (d.set v s).1)
    (hkeep : ∀ i d, l.dims[i]? = some d → ∀ v s j u, j ≠ i → P j u s → P j u (d.set v s).1)
    (hdrop : ∀ σ s d, (∀ i v, σ[i]? = some v → P i v s) → (l.drop s).2 = .ok d → Fresh σ (l.drop s).1)
    (heval : ∀ σ, ∀ f ∈ l.evals, ∀ s, Fresh σ s → Fresh σ (f s).1) (sig ask : ℕ → Bool) (s : S) (n : ℕ)
    (r : List (List ℕ × A)) (hr : (execute l sig ask s).1.logs[n]? = some r) (σ : List ℕ) (a : A) (ha : (σ, a) ∈ r) :
    ∃ f s' x, l.evals[n]? = some f ∧ Fresh σ s' ∧ (f s').2 = .ok x ∧ l.artifact x = .ok a := by
  have h := passes_inv l sig ask (fun rs => rs.length = l.evals.length ∧ ∀ (n : ℕ) r, rs[n]? = some r → ∀ σ a, (σ, a) ∈ r →
      ∃ f s' x, l.evals[n]? = some f ∧ Fresh σ s' ∧ (f s').2 = .ok x ∧ l.artifact x = .ok a)
    (schedule l.priority (l.dims.map Dim.points) l.numDrops) ⟨s, List.replicate l.evals.length [], 0⟩ (by
      intro σ k hk s d as rs hs ⟨hlen, hI⟩
      refine ⟨by rw [addAll_length]; exact hlen, ?_⟩
      intro n r hr τ a ha
      obtain ⟨r', b, h1, h2, rfl⟩ := addAll_get σ rs as n r hr (by rw [hlen]; exact sample_length l σ s d as hs)
      rcases List.mem_append.mp ha with ha | ha
      · exact hI n r' h1 τ a ha
      · obtain ⟨rfl, rfl⟩ := Prod.mk.inj (List.mem_singleton.mp ha)
        obtain ⟨c1, c2, xs, c3, c4⟩ := sample_ok l τ s d as hs
        have hl := section_length ((mem_schedule _ _ _ _ _).mp hk).1
        have hP := (configured P l.dims 0 τ (by simpa using hl) (by simpa using hset) (by simpa using hkeep) s c1).1
        have hF := hdrop τ _ d (by simpa using hP) c2
        obtain ⟨x, hx, hxa⟩ := artifacts_get _ _ _ c4 n a h2
        obtain ⟨f, s', e1, e2, e3⟩ := evaluate_get (Fresh τ) l.evals (heval τ) _ hF xs c3 n x hx
        exact ⟨f, s', x, e1, e2, e3, hxa⟩) (by
      refine ⟨by simp, ?_⟩
      intro n r hr σ a ha
      obtain ⟨_, rfl⟩ := List.mem_replicate.mp (List.mem_of_getElem? hr)
      simp at ha)
  exact h.2 n r hr σ a ha

theorem passes_interrupt {S D E A : Type} (l : Loop S D E A) (sig ask : ℕ → Bool) (n : ℕ)
    (hn : sig n = true ∨ l.manual = true ∧ ask n = false) (is : List (List ℕ × ℕ)) (t : St S A) (ht : t.total ≤ n)
    (h : ∀ m, t.total ≤ m → m < n → sig m = false ∧ (l.manual = true → ask m = true)) :
    passes l sig ask is t = passes l (fun _ => false) (fun _ => true) (is.take (n - t.total)) t := by
  induction is generalizing t with
  | nil => simp [passes]
  | cons i is ih =>
    obtain ⟨σ, k⟩ := i
    rcases Nat.eq_or_lt_of_le ht with e | hlt
    · rw [e, Nat.sub_self, List.take_zero]
      unfold passes
      rw [e]
      rcases hn with hn | ⟨hn1, hn2⟩
      · simp [hn]
      · simp [hn1, hn2]
    · obtain ⟨h1, h2⟩ := h t.total (le_refl _) hlt
      have hm : (l.manual && !ask t.total) = false := by
        cases h : l.manual
        · rfl
        · simp [h2 h]
      have hi := ih { (attempt l σ t).1 with total := t.total + 1 } hlt fun m hm1 hm2 => h m (by simp only at hm1; omega) hm2
      rw [show n - t.total = (n - (t.total + 1)) + 1 by omega, List.take_succ_cons]
      unfold passes
      simp only [h1, hm, Bool.false_eq_true, if_false, Bool.not_true, Bool.and_false]
      split
      · split
        · rfl
        · exact hi
      · exact hi

/-- **Interrupts are clean.**  A run interrupted before pass `n`, by a signal or by the user's denial, ends in exactly the
state, with exactly the results, of a run over the first `n` passes of the schedule. -/
theorem C115_interrupt {S D E A : Type} (l : Loop S D E A) (sig ask : ℕ → Bool) (n : ℕ)
    (hn : sig n = true ∨ l.manual = true ∧ ask n = false)
    (h : ∀ m, m < n → sig m = false ∧ (l.manual = true → ask m = true)) (s : S) :
    execute l sig ask s = passes l (fun _ => false) (fun _ => true)
      ((schedule l.priority (l.dims.map Dim.points) l.numDrops).take n) ⟨s, List.replicate l.evals.length [], 0⟩ :=
  passes_interrupt l sig ask n hn _ _ (Nat.zero_le _) fun m _ hm => h m hm

/-! ### Recording -/

/-- `ScenarioMode`, `core/scenario.py` 49-68. -/
inductive Mode
  | default
  | record
  | replay
  deriving DecidableEq

/-- `HardwareLoop.run` as far as the scenario's mode is concerned, `hardware_loop/hardware_loop.py` 706-771: `recording` if a results
directory is set and drops are recorded; `Scenario.record` raises unless the mode is default (`core/scenario.py` 411-414),
`Scenario.stop` (`core/scenario.py` 550-566) is not reached if the run raises.  Simplified: hooks do not change the mode,
files can be written. -/
def run {S D E A : Type} (l : Loop S D E A) (recording : Bool) (sig ask : ℕ → Bool) (m : Mode) (s : S) :
    Mode × Except PyErr (St S A) :=
  if recording = true ∧ m ≠ .default then (m, .error .runtime)
  else
    match (execute l sig ask s).2 with
    | some e => (if recording then .record else m, .error e)
    | none => (.default, .ok (execute l sig ask s).1)

/-- **Recordings are finished, except in debug mode.**  Runs that return leave the scenario in default mode; outside of debug mode
every run started in default mode returns, however often it is interrupted and whatever raises. -/
theorem C115_recording_partial {S D E A : Type} (l : Loop S D E A) (recording : Bool) (sig ask : ℕ → Bool) (m : Mode) (s : S) :
    (∀ t, (run l recording sig ask m s).2 = .ok t → (run l recording sig ask m s).1 = .default) ∧
      (l.debug = false → m = .default → ∃ t, (run l recording sig ask m s).2 = .ok t) := by
  constructor
  · intro t h
    unfold run at h ⊢
    split
    · rename_i hc; rw [if_pos hc] at h; simp at h
    · rename_i hc
      rw [if_neg hc] at h
      split
      · rename_i e he; rw [he] at h; simp at h
      · rfl
  · intro hd hm
    have key : ∀ (is : List (List ℕ × ℕ)) (t : St S A), (passes l sig ask is t).2 = none := by
      intro is
      induction is with
      | nil => intro t; rfl
      | cons i is ih =>
        intro t
        obtain ⟨σ, k⟩ := i
        unfold passes
        split
        · rfl
        · split
          · rfl
          · split
            · rw [hd]; exact ih _
            · exact ih _
    unfold run
    rw [if_neg (by simp [hm])]
    have : (execute l sig ask s).2 = none := key _ _
    rw [this]
    exact ⟨_, rfl⟩

/-- **Failed debug runs block later recordings.**  After a recorded run raised an exception of a drop, hook or evaluator, every
further recorded run on the scenario raises a runtime error. -/
theorem C115_recording_fails {S D E A : Type} (l : Loop S D E A) (sig ask : ℕ → Bool) (s : S) (e : PyErr)
    (h : (run l true sig ask .default s).2 = .error e) {D' E' A' : Type} (l' : Loop S D' E' A') (sig' ask' : ℕ → Bool) (s' : S) :
    run l' true sig' ask' (run l true sig ask .default s).1 s' = (.record, .error .runtime) := by
  have : (run l true sig ask .default s).1 = .record := by
    unfold run at h ⊢
    rw [if_neg (by simp)] at h ⊢
    split
    · rfl
    · rename_i he; rw [he] at h; simp at h
  rw [this]
  simp [run]

/-! ### States of scenarios that cannot be serialized -/

/-- A device with the operators of its transmit and receive slots. -/
structure Dev where
  carrier : ℚ
  bandwidth : ℚ
  oversampling : ℕ
  transmitters : List ℕ
  receivers : List ℕ
  deriving DecidableEq

/-- `DSPSlot.add`, `core/device.py` 804-819. -/
def slotAdd (ops : List ℕ) (o : ℕ) : List ℕ := if o ∈ ops then ops else ops ++ [o]

/-- One pass of the workaround for scenarios that are not serializable, `hardware_loop/hardware_loop.py` 734-744: returns the
device after the pass and the dummy recorded in its place.  Iterates over a copy of the slots. -/
def surrogate (d : Dev) : Dev × Dev :=
  ({ d with transmitters := d.transmitters.foldl slotAdd d.transmitters, receivers := d.receivers.foldl slotAdd d.receivers },
    ⟨d.carrier, d.bandwidth, d.oversampling, [], []⟩)

theorem foldl_slotAdd (ops os : List ℕ) (h : ∀ o ∈ os, o ∈ ops) : os.foldl slotAdd ops = ops := by
  induction os with
  | nil => rfl
  | cons o os ih =>
    rw [List.foldl_cons, slotAdd, if_pos (h o List.mem_cons_self)]
    exact ih fun o ho => h o (List.mem_cons_of_mem _ ho)

/-- **Recorded dummies have the devices' radio parameters**, and recording leaves the devices alone. -/
theorem C115_surrogate_partial (ds : List Dev) :
    (ds.map fun d => (surrogate d).1) = ds ∧
      (ds.map fun d => ((surrogate d).2.carrier, (surrogate d).2.bandwidth, (surrogate d).2.oversampling)) =
        ds.map fun d => (d.carrier, d.bandwidth, d.oversampling) := by
  constructor
  · have : (fun d => (surrogate d).1) = fun d : Dev => d := by
      funext d
      simp only [surrogate]
      rw [foldl_slotAdd _ _ fun _ h => h, foldl_slotAdd _ _ fun _ h => h]
    rw [this, List.map_id']
  · rfl

/-- **Recorded dummies have no operators**: whatever operators the devices have, a replay of the recorded state has none of them. -/
theorem C115_surrogate_fails (ds : List Dev) (d : Dev) (hd : d ∈ ds) (o : ℕ) (ho : o ∈ d.transmitters ∨ o ∈ d.receivers) :
    (ds.map fun d => (surrogate d).2) ≠ ds ∧ ∀ r ∈ ds.map fun d => (surrogate d).2, o ∉ r.transmitters ∧ o ∉ r.receivers := by
  have h2 : ∀ r ∈ ds.map fun d => (surrogate d).2, o ∉ r.transmitters ∧ o ∉ r.receivers := by
    intro r hr
    obtain ⟨d', _, rfl⟩ := List.mem_map.mp hr
    simp [surrogate]
  refine ⟨fun h => ?_, h2⟩
  rw [h] at h2
  have := h2 d hd
  rcases ho with ho | ho
  · exact this.1 ho
  · exact this.2 ho

/-! ### Default objects of new dimensions -/

/-- Name of a private attribute within the methods of a class. -/
def mangle (cls name : String) : String := "_" ++ cls ++ name

/-- Private attributes of an instance that the scenario may be looked up in: `Pipeline.__init__` (`core/pipeline.py` 25-41) is the only
method assigning `__scenario`. -/
def attributes (scenario : ℕ) : List (String × ℕ) := [(mangle "Pipeline" "__scenario", scenario)]

/-- Attribute lookup. -/
def lookup (attrs : List (String × ℕ)) (name : String) : Except PyErr ℕ :=
  match attrs.find? fun p => p.1 == name with
  | some p => .ok p.2
  | none => .error .attribute

/-- Considered objects of `HardwareLoop.new_dimension`, `hardware_loop/hardware_loop.py` 561. -/
def considered (attrs : List (String × ℕ)) (args : List ℕ) : Except PyErr (List ℕ) :=
  if args.length < 1 then
    match lookup attrs (mangle "HardwareLoop" "__scenario") with
    | .error e => .error e
    | .ok s => .ok [s]
  else .ok args

/-- **New dimensions take the given objects.** -/
theorem C115_dimension_partial (scenario o : ℕ) (os : List ℕ) : considered (attributes scenario) (o :: os) = .ok (o :: os) := by
  simp [considered]

/-- **New dimensions do not default to the scenario**: without objects an attribute error is raised, although the loop has a
scenario. -/
theorem C115_dimension_fails (scenario : ℕ) :
    considered (attributes scenario) [] = .error .attribute ∧
      lookup (attributes scenario) (mangle "Pipeline" "__scenario") = .ok scenario := by
  constructor <;> simp [considered, lookup, attributes, mangle]

/-! ### Example -/

/-- A loop over two dimensions of two and three points with two evaluators reading the reception; the state is
(first parameter, second parameter, reception).  Drops under the first section raise. -/
def demo (p : Priority) (debug : Bool) : Loop (ℕ × ℕ × ℕ) Unit ℕ ℕ where
  numDrops := 2
  dims := [⟨2, fun v s => ((v, s.2), none)⟩, ⟨3, fun v s => ((s.1, v, s.2.2), none)⟩]
  drop s := if s.1 = 0 ∧ s.2.1 = 0 then (s, .error .runtime) else ((s.1, s.2.1, 10 * s.1 + s.2.1), .ok ())
  evals := [fun s => (s, .ok s.2.2), fun s => (s, .ok (s.2.2 + 100))]
  artifact x := .ok x
  pre := []
  post := []
  priority := p
  debug := debug
  manual := false

/-- The hypotheses of `C115_parameters` hold of the example. -/
example (p : Priority) (debug : Bool) (sig ask : ℕ → Bool) (s : ℕ × ℕ × ℕ) (n : ℕ) (r : List (List ℕ × ℕ))
    (hr : (execute (demo p debug) sig ask s).1.logs[n]? = some r) (σ : List ℕ) (a : ℕ) (ha : (σ, a) ∈ r) :=
  C115_parameters (demo p debug) (fun i v s => (i = 0 → s.1 = v) ∧ (i = 1 → s.2.1 = v))
    (fun σ s => (∀ v, σ[0]? = some v → s.2.2 / 10 = v ∨ 10 ≤ s.2.1) ∧ s.2.2 = 10 * s.1 + s.2.1)
    (by
      intro i d hd v s _ _
      match i, hd with
      | 0, hd => simp [demo] at hd; subst hd; simp
      | 1, hd => simp [demo] at hd; subst hd; simp)
    (by
      intro i d hd v s j u hj h
      match i, hd with
      | 0, hd => simp [demo] at hd; subst hd; exact ⟨fun e => absurd e hj, h.2⟩
      | 1, hd => simp [demo] at hd; subst hd; exact ⟨h.1, fun e => absurd e hj⟩)
    (by
      intro σ s d h hd
      simp only [demo] at hd ⊢
      split at hd
      · simp at hd
      · rename_i hc
        rw [if_neg hc]
        refine ⟨fun v hv => ?_, rfl⟩
        have := (h 0 v hv).1 rfl
        simp only
        omega)
    (by
      intro σ f hf s h
      simp only [demo, List.mem_cons, List.not_mem_nil, or_false] at hf
      rcases hf with rfl | rfl <;> exact h)
    sig ask s n r hr σ a ha

example : (execute (demo .grid false) (fun _ => false) (fun _ => true) (5, 5, 5)).1.logs =
    [[([0, 1], 1), ([0, 2], 2), ([1, 0], 10), ([1, 1], 11), ([1, 2], 12), ([0, 1], 1), ([0, 2], 2), ([1, 0], 10), ([1, 1], 11),
      ([1, 2], 12)],
     [([0, 1], 101), ([0, 2], 102), ([1, 0], 110), ([1, 1], 111), ([1, 2], 112), ([0, 1], 101), ([0, 2], 102), ([1, 0], 110),
      ([1, 1], 111), ([1, 2], 112)]] := by decide

/-- Section `[1, 2]` meets the hypotheses of `C115_isolated`, although section `[0, 0]` raises. -/
example : ∀ r ∈ (execute (demo .drops false) (fun _ => false) (fun _ => true) (5, 5, 5)).1.logs,
    (r.map Prod.fst).count [1, 2] = 2 :=
  (C115_isolated (demo .drops false) rfl (fun _ => true) (fun _ _ => rfl) (5, 5, 5)).2.2 [1, 2]
    (.cons (by decide) (.cons (by decide) .nil)) (fun _ => rfl)
    fun s => ⟨(), [12, 112], by simp [sample, demo, calls, Dim.configure, evaluate, artifacts]⟩

/-- An interrupt before pass three. -/
example := C115_interrupt (demo .drops false) (fun n => n == 3) (fun _ => true) 3 (.inl rfl)
  (fun m hm => ⟨by simp; omega, fun _ => rfl⟩) (5, 5, 5)

/-- A recorded debug run that raises. -/
example : (run (demo .drops true) true (fun _ => false) (fun _ => true) .default (5, 5, 5)).2 = .error .runtime := by rfl

example := C115_surrogate_fails [⟨1, 2, 1, [7], []⟩] ⟨1, 2, 1, [7], []⟩ (by simp) 7 (by simp)

end Verif.HwLoop
