import Verif.Mc.Queue

/-!
# Monte Carlo actors: execution of batches

Model of `MonteCarloActor.__execute_stages` and `__run_batch`
(`hermespy/core/pymonte/actors.py` 316-338, 367-452) over an arbitrary investigated object.
-/

namespace Verif.Mc

/-- What `__run_batch` needs to know about a grid dimension: number of sample points and the
declared impacts (`hermespy/core/pymonte/grid.py` 266-404, 436-455). -/
structure GDim where
  numPoints : Nat
  first : Option String
  last : Option String

/-- An actor class together with the investigated object: `X` is the joint state of the
investigated object and the runner, `configure d i` runs the setters of dimension `d` with its
`i`-th sample point, `exec k a` runs stage `k` with arguments `a`, `evaluate` collects the
artifacts of all evaluators.  All of them may raise. -/
structure Actor (X Arg Art : Type) where
  ids : List String
  grid : List GDim
  args : Nat → List Arg
  configure : Nat → Nat → X → Except PyErr X
  exec : Nat → Arg → X → Except PyErr X
  evaluate : X → Except PyErr Art

variable {X Arg Art : Type}

/-- The `for arguments in stage_arguments` loop (`actors.py` 333-338) with the recursive call
abstracted as `rec`. -/
def argLoop (ex : Arg → X → Except PyErr X) (rec : X → Except PyErr (X × List Art)) :
    List Arg → X → Except PyErr (X × List Art)
  | [], x => .ok (x, [])
  | a :: as, x =>
    match ex a x with
    | .error e => .error e
    | .ok x1 =>
      match rec x1 with
      | .error e => .error e
      | .ok (x2, r) =>
        match argLoop ex rec as x2 with
        | .error e => .error e
        | .ok (x3, rs) => .ok (x3, r ++ rs)

/-- `__execute_stages(start, stop)` (`actors.py` 316-338) with `n = stop + 1 - start` stages to
go.  The artifact accumulator is returned. -/
def Actor.executeStages (A : Actor X Arg Art) : Nat → Nat → X → Except PyErr (X × List Art)
  | 0, _, x =>
    match A.evaluate x with
    | .error e => .error e
    | .ok a => .ok (x, [a])
  | n + 1, start, x =>
    argLoop (A.exec start) (Actor.executeStages A n (start + 1)) (A.args start) x

/-- `GridDimension.configure_point` as called by the actor (`actors.py` 381, 398; range check in
`grid.py` 428-431; `self.__grid[d]` raises `IndexError` for an unknown dimension). -/
def Actor.configurePoint (A : Actor X Arg Art) (d i : Nat) (x : X) : Except PyErr X :=
  match A.grid[d]? with
  | none => .error .index
  | some g => if i < g.numPoints then A.configure d i x else .error .value

/-- Configure a list of (dimension, point) pairs in order. -/
def Actor.configureAll (A : Actor X Arg Art) : List (Nat × Nat) → X → Except PyErr X
  | [], x => .ok x
  | (d, i) :: r, x =>
    match A.configurePoint d i x with
    | .error e => .error e
    | .ok x => A.configureAll r x

/-- `np.argwhere(section_index_array != recent_section_indices)` together with the new values
(`actors.py` 390-398).  Both arrays have the same length: the number of grid dimensions. -/
def changedFrom : Nat → Coord → Coord → List (Nat × Nat)
  | d, s :: ss, r :: rs => if s ≠ r then (d, s) :: changedFrom (d + 1) ss rs
      else changedFrom (d + 1) ss rs
  | _, _, _ => []

/-- `enumerate(section)` (`actors.py` 380). -/
def enumFrom : Nat → Coord → List (Nat × Nat)
  | _, [] => []
  | d, s :: ss => (d, s) :: enumFrom (d + 1) ss

/-- First impacted stage (`actors.py` 401, 403-413, 423-424). -/
def firstImpact (ids : List String) (changed : List GDim) : Nat :=
  let f := changed.foldl (fun acc g =>
    match g.first with
    | none => 0
    | some s => if s ∈ ids then min acc (ids.idxOf s) else acc) ids.length
  if f ≥ ids.length then 0 else f

/-- Last impacted stage (`actors.py` 402-403, 415-421, 426-427). -/
def lastImpact (ids : List String) (changed : List GDim) : Int :=
  let l := changed.foldl (fun (acc : Int) g =>
    match g.last with
    | none => (ids.length : Int) - 1
    | some s => if s ∈ ids then max acc (ids.idxOf s : Int) else acc) 0
  if l ≤ 0 then (ids.length : Int) - 1 else l

/-- A `MonteCarloSample`: section, index of the sample within the section run, artifacts. -/
structure Sample (Art : Type) where
  section' : Coord
  index : Nat
  artifact : Art
  deriving DecidableEq

/-- One iteration of the program loop (`actors.py` 387-438). -/
def Actor.runSection (A : Actor X Arg Art) (recent sec : Coord) (x : X) :
    Except PyErr (X × List (Sample Art)) :=
  let changed := changedFrom 0 sec recent
  match A.configureAll changed x with
  | .error e => .error e
  | .ok x1 =>
    let gs := changed.filterMap fun p => A.grid[p.1]?
    let first := firstImpact A.ids gs
    let last := lastImpact A.ids gs
    match A.executeStages (last + 1 - first).toNat first x1 with
    | .error e => .error e
    | .ok (x2, arts) => .ok (x2, arts.zipIdx.map fun p => ⟨sec, p.2, p.1⟩)

/-- The program loop (`actors.py` 387-441). -/
def Actor.runSections (A : Actor X Arg Art) : Coord → List Coord → X →
    Except PyErr (X × List (Sample Art))
  | _, [], x => .ok (x, [])
  | recent, s :: ss, x =>
    match A.runSection recent s x with
    | .error e => .error e
    | .ok (x1, r) =>
      match A.runSections s ss x1 with
      | .error e => .error e
      | .ok (x2, rs) => .ok (x2, r ++ rs)

/-- `__run_batch` before the exception handler (`actors.py` 378-441). -/
def Actor.runBatch (A : Actor X Arg Art) : List Coord → X → Except PyErr (X × List (Sample Art))
  | [], _ => .error .index
  | s :: ss, x =>
    match A.configureAll (enumFrom 0 s) x with
    | .error e => .error e
    | .ok x1 => A.runSections s (s :: ss) x1

/-- `__run_batch` with its exception handler (`actors.py` 443-452): with `catch_exceptions` a
failing batch yields no samples at all, otherwise an exception. -/
def Actor.runBatchCaught (A : Actor X Arg Art) (catchExceptions : Bool) (batch : List Coord)
    (x : X) : Except PyErr (List (Sample Art)) :=
  match A.runBatch batch x with
  | .ok (_, r) => .ok r
  | .error _ => if catchExceptions then .ok [] else .error .runtime

/-! ## Specification: pipelines with declared dependencies -/

/-- A deterministic pipeline: stage `k` computes its output from the configured sample points
and the outputs of other stages. -/
structure PipeState (Out : Type) where
  cfg : Nat → Nat
  outs : Nat → Out

/-- Pointwise update. -/
def upd {α : Type} (f : Nat → α) (k : Nat) (v : α) : Nat → α := fun j => if j = k then v else f j

variable {Out : Type}

/-- The actor of a pipeline with stage functions `f`, one argument tuple per stage. -/
def pipeActor (ids : List String) (grid : List GDim)
    (f : Nat → (Nat → Nat) → (Nat → Out) → Out) (ev : PipeState Out → Art) :
    Actor (PipeState Out) Unit Art where
  ids := ids
  grid := grid
  args := fun _ => [()]
  configure := fun d i x => .ok { x with cfg := upd x.cfg d i }
  exec := fun k _ x => .ok { x with outs := upd x.outs k (f k x.cfg x.outs) }
  evaluate := fun x => .ok (ev x)

/-- Reference: run all stages `0 .. n-1` one after the other. -/
def fullRun (f : Nat → (Nat → Nat) → (Nat → Out) → Out) (cfg : Nat → Nat) (outs : Nat → Out) :
    Nat → (Nat → Out)
  | 0 => outs
  | n + 1 => upd (fullRun f cfg outs n) n (f n cfg (fullRun f cfg outs n))

/-- The sample points of section `s`; further parameters keep the value `base`. -/
def sectionConfig (base : Nat → Nat) (s : Coord) : Nat → Nat :=
  fun d => match s[d]? with | some v => v | none => base d

/-- Dimension `d` influences stage `k`, directly or through the output of an earlier stage. -/
inductive Influences (direct reads : Nat → Nat → Prop) (d : Nat) : Nat → Prop
  | direct {k : Nat} : direct d k → Influences direct reads d k
  | through {j k : Nat} : j < k → reads k j → Influences direct reads d j →
      Influences direct reads d k

/-- `f k` depends only on the dimensions with `direct d k` and the earlier stages with
`reads k j`. -/
def RespectsDeps (f : Nat → (Nat → Nat) → (Nat → Out) → Out) (direct reads : Nat → Nat → Prop) :
    Prop :=
  ∀ k cfg cfg' o o', (∀ d, direct d k → cfg d = cfg' d) → (∀ j, j < k → reads k j → o j = o' j) →
    f k cfg o = f k cfg' o'

/-- The declared impacts of a dimension cover the stage with index `k`. -/
def Covers (ids : List String) (g : GDim) (k : Nat) : Prop :=
  (∀ s, g.first = some s → s ∈ ids ∧ ids.idxOf s ≤ k) ∧
  (∀ s, g.last = some s → s ∈ ids ∧ k ≤ ids.idxOf s)

/-! ## Lemmas -/

theorem fullRun_ge (f : Nat → (Nat → Nat) → (Nat → Out) → Out) (cfg : Nat → Nat)
    (outs : Nat → Out) (n k : Nat) (h : n ≤ k) : fullRun f cfg outs n k = outs k := by
  induction n with
  | zero => rfl
  | succ n ih =>
    simp only [fullRun, upd]
    rw [if_neg (by omega)]
    exact ih (by omega)

theorem fullRun_stable (f : Nat → (Nat → Nat) → (Nat → Out) → Out) (cfg : Nat → Nat)
    (outs : Nat → Out) (m n k : Nat) (hk : k < m) (hm : m ≤ n) :
    fullRun f cfg outs n k = fullRun f cfg outs m k := by
  induction n with
  | zero => omega
  | succ n ih =>
    by_cases h : m = n + 1
    · subst h; rfl
    · simp only [fullRun, upd]
      rw [if_neg (by omega)]
      exact ih (by omega)

/-- The output of stage `k` in a full run. -/
theorem fullRun_at (f : Nat → (Nat → Nat) → (Nat → Out) → Out) (cfg : Nat → Nat)
    (outs : Nat → Out) (n k : Nat) (hk : k < n) :
    fullRun f cfg outs n k = f k cfg (fullRun f cfg outs k) := by
  rw [fullRun_stable f cfg outs (k + 1) n k (by omega) (by omega)]
  simp [fullRun, upd]

/-- Stages not influenced by the differing dimensions have equal outputs. -/
theorem fullRun_congr {f : Nat → (Nat → Nat) → (Nat → Out) → Out} {direct reads : Nat → Nat → Prop}
    (hf : RespectsDeps f direct reads) (cfg cfg' : Nat → Nat) (o o' : Nat → Out) (n k : Nat)
    (hk : k < n) (h : ∀ d, Influences direct reads d k → cfg d = cfg' d) :
    fullRun f cfg o n k = fullRun f cfg' o' n k := by
  induction k using Nat.strongRecOn with
  | ind k ih =>
    rw [fullRun_at f cfg o n k hk, fullRun_at f cfg' o' n k hk]
    apply hf
    · intro d hd
      exact h d (Influences.direct hd)
    · intro j hj hr
      have := ih j hj (by omega) (fun d hd => h d (Influences.through hj hr hd))
      rw [fullRun_stable f cfg o k n j hj (by omega),
        fullRun_stable f cfg' o' k n j hj (by omega)] at this
      exact this

/-- Running stages `start .. start+n-1` on given outputs. -/
def partRun (f : Nat → (Nat → Nat) → (Nat → Out) → Out) (cfg : Nat → Nat) :
    Nat → Nat → (Nat → Out) → (Nat → Out)
  | 0, _, o => o
  | n + 1, start, o => partRun f cfg n (start + 1) (upd o start (f start cfg o))

theorem partRun_outside (f : Nat → (Nat → Nat) → (Nat → Out) → Out) (cfg : Nat → Nat)
    (n start k : Nat) (o : Nat → Out) (h : k < start ∨ start + n ≤ k) :
    partRun f cfg n start o k = o k := by
  induction n generalizing start o with
  | zero => rfl
  | succ n ih =>
    simp only [partRun]
    rw [ih (start + 1) _ (by omega)]
    simp only [upd]
    rw [if_neg (by omega)]

theorem partRun_split (f : Nat → (Nat → Nat) → (Nat → Out) → Out) (cfg : Nat → Nat)
    (m n start : Nat) (o : Nat → Out) :
    partRun f cfg (m + n) start o = partRun f cfg n (start + m) (partRun f cfg m start o) := by
  induction m generalizing start o with
  | zero => simp [partRun]
  | succ m ih =>
    rw [show m + 1 + n = (m + n) + 1 by omega]
    simp only [partRun]
    rw [ih (start + 1)]
    congr 1
    omega

theorem partRun_inside (f : Nat → (Nat → Nat) → (Nat → Out) → Out) (cfg : Nat → Nat)
    (n start k : Nat) (o : Nat → Out) (h1 : start ≤ k) (h2 : k < start + n) :
    partRun f cfg n start o k = f k cfg (partRun f cfg (k - start) start o) := by
  have hs := partRun_split f cfg (k - start) (n - (k - start)) start o
  rw [show k - start + (n - (k - start)) = n by omega, show start + (k - start) = k by omega] at hs
  rw [hs]
  obtain ⟨m, hm⟩ : ∃ m, n - (k - start) = m + 1 := ⟨n - (k - start) - 1, by omega⟩
  rw [hm]
  simp only [partRun]
  rw [partRun_outside f cfg m (k + 1) k _ (by omega)]
  simp [upd]

/-- Executing a stage range of the pipeline actor. -/
theorem executeStages_pipe (ids : List String) (grid : List GDim)
    (f : Nat → (Nat → Nat) → (Nat → Out) → Out) (ev : PipeState Out → Art) (n start : Nat)
    (x : PipeState Out) :
    (pipeActor ids grid f ev).executeStages n start x
      = .ok (⟨x.cfg, partRun f x.cfg n start x.outs⟩,
          [ev ⟨x.cfg, partRun f x.cfg n start x.outs⟩]) := by
  induction n generalizing start x with
  | zero => rfl
  | succ n ih =>
    rw [Actor.executeStages]
    simp only [pipeActor, argLoop] at ih ⊢
    rw [ih (start + 1) _]
    simp [partRun]

/-- Re-running a range that covers all stages influenced by the changed dimensions turns a full
run under the old configuration into a full run under the new one. -/
theorem partRun_refresh {f : Nat → (Nat → Nat) → (Nat → Out) → Out}
    {direct reads : Nat → Nat → Prop} (hf : RespectsDeps f direct reads) (N n start : Nat)
    (cfg cfg' : Nat → Nat) (base o : Nat → Out)
    (ho : ∀ k, k < N → o k = fullRun f cfg base N k)
    (hcov : ∀ d k, k < N → cfg d ≠ cfg' d → Influences direct reads d k →
      start ≤ k ∧ k < start + n) (k : Nat) (hk : k < N) :
    partRun f cfg' n start o k = fullRun f cfg' base N k := by
  induction k using Nat.strongRecOn with
  | ind k ih =>
    by_cases hin : start ≤ k ∧ k < start + n
    · rw [partRun_inside f cfg' n start k o hin.1 hin.2, fullRun_at f cfg' base N k hk]
      apply hf
      · intro _ _; rfl
      · intro j hj _
        have h1 := ih j hj (by omega)
        rw [fullRun_stable f cfg' base k N j hj (by omega)] at h1
        rw [← h1]
        have hs := partRun_split f cfg' (k - start) (n - (k - start)) start o
        rw [show k - start + (n - (k - start)) = n by omega] at hs
        rw [hs]
        exact (partRun_outside f cfg' _ _ j _ (by omega)).symm
    · rw [partRun_outside f cfg' n start k o (by omega), ho k hk]
      apply fullRun_congr hf _ _ _ _ _ _ hk
      intro d hd
      by_contra hne
      exact hin (hcov d k hk hne hd)

theorem configureAll_pipe (ids : List String) (grid : List GDim)
    (f : Nat → (Nat → Nat) → (Nat → Out) → Out) (ev : PipeState Out → Art)
    (L : List (Nat × Nat)) (hL : ∀ p ∈ L, ∃ g, grid[p.1]? = some g ∧ p.2 < g.numPoints)
    (x : PipeState Out) :
    (pipeActor ids grid f ev).configureAll L x
      = .ok ⟨L.foldl (fun c p => upd c p.1 p.2) x.cfg, x.outs⟩ := by
  induction L generalizing x with
  | nil => rfl
  | cons p L ih =>
    obtain ⟨g, hg, hlt⟩ := hL p (by simp)
    obtain ⟨d, i⟩ := p
    have hcp : (pipeActor ids grid f ev).configurePoint d i x
        = .ok { x with cfg := upd x.cfg d i } := by
      simp only at hg hlt
      simp [Actor.configurePoint, pipeActor, hg, hlt]
    rw [Actor.configureAll, hcp]
    simp only [List.foldl_cons]
    exact ih (fun p hp => hL p (by simp [hp])) { x with cfg := upd x.cfg d i }

theorem foldl_enumFrom (s : Coord) (d : Nat) (c : Nat → Nat) :
    (enumFrom d s).foldl (fun c p => upd c p.1 p.2) c
      = fun j => if d ≤ j then (match s[j - d]? with | some v => v | none => c j) else c j := by
  induction s generalizing d c with
  | nil => funext j; simp [enumFrom]
  | cons a s ih =>
    simp only [enumFrom, List.foldl_cons]
    rw [ih]
    funext j
    by_cases h1 : d + 1 ≤ j
    · have : j - d = (j - (d + 1)) + 1 := by omega
      rw [if_pos h1, if_pos (by omega), this]
      simp only [List.getElem?_cons_succ]
      cases s[j - (d + 1)]? with
      | none => simp only [upd]; rw [if_neg (by omega)]
      | some v => rfl
    · rw [if_neg h1]
      by_cases h2 : j = d
      · subst h2; simp [upd]
      · rw [if_neg (by omega)]; simp [upd, h2]

theorem foldl_changedFrom (s r : Coord) (hl : s.length = r.length) (d : Nat) (c : Nat → Nat)
    (hc : ∀ j v, r[j]? = some v → c (d + j) = v) :
    (changedFrom d s r).foldl (fun c p => upd c p.1 p.2) c
      = fun j => if d ≤ j then (match s[j - d]? with | some v => v | none => c j) else c j := by
  induction s generalizing r d c with
  | nil => funext j; simp [changedFrom]
  | cons a s ih =>
    cases r with
    | nil => simp at hl
    | cons b r =>
      have key : ∀ c' : Nat → Nat, (c' = if a ≠ b then upd c d a else c) →
          (changedFrom (d + 1) s r).foldl (fun c p => upd c p.1 p.2) c'
          = fun j => if d ≤ j then (match (a :: s)[j - d]? with | some v => v | none => c j)
              else c j := by
        intro c' hc'
        rw [ih r (by simpa using hl) (d + 1) c']
        · funext j
          by_cases h1 : d + 1 ≤ j
          · have : j - d = (j - (d + 1)) + 1 := by omega
            rw [if_pos h1, if_pos (by omega), this]
            simp only [List.getElem?_cons_succ]
            cases s[j - (d + 1)]? with
            | none =>
              simp only [hc']; split
              · simp only [upd]; rw [if_neg (by omega)]
              · rfl
            | some v => rfl
          · rw [if_neg h1]
            by_cases h2 : j = d
            · subst h2
              have hb := hc 0 b (by simp)
              simp only [Nat.add_zero] at hb
              rw [hc']
              by_cases hab : a = b
              · simp [hab, hb]
              · simp [hab, upd]
            · rw [if_neg (by omega)]
              simp only [hc']; split
              · simp [upd, h2]
              · rfl
        · intro j v hv
          have := hc (j + 1) v (by simpa using hv)
          rw [hc']
          split
          · simp only [upd]; rw [if_neg (by omega)]; rw [← this]; congr 1; omega
          · rw [← this]; congr 1; omega
      simp only [changedFrom]
      by_cases hab : a = b
      · simp only [hab, ne_eq, not_true_eq_false, if_false]
        have := key c (by simp [hab])
        rw [hab] at this
        exact this
      · simp only [ne_eq, hab, not_false_eq_true, if_true, List.foldl_cons]
        exact key (upd c d a) (by simp [hab])

theorem mem_changedFrom (s r : Coord) (d : Nat) (p : Nat × Nat) (hp : p ∈ changedFrom d s r) :
    ∃ j, p.1 = d + j ∧ s[j]? = some p.2 ∧ s[j]? ≠ r[j]? := by
  induction s generalizing r d with
  | nil => simp [changedFrom] at hp
  | cons a s ih =>
    cases r with
    | nil => simp [changedFrom] at hp
    | cons b r =>
      have step : p ∈ changedFrom (d + 1) s r →
          ∃ j, p.1 = d + j ∧ (a :: s)[j]? = some p.2 ∧ (a :: s)[j]? ≠ (b :: r)[j]? := by
        intro h
        obtain ⟨j, h1, h2, h3⟩ := ih r (d + 1) h
        exact ⟨j + 1, by omega, by simpa using h2, by simpa using h3⟩
      simp only [changedFrom] at hp
      split at hp
      · rename_i hne
        rcases List.mem_cons.1 hp with rfl | h
        · exact ⟨0, by simp, by simp, by simpa using hne⟩
        · exact step h
      · exact step hp

theorem changedFrom_complete (s r : Coord) (hl : s.length = r.length) (d j : Nat) (v : Nat)
    (h1 : s[j]? = some v) (h2 : s[j]? ≠ r[j]?) : (d + j, v) ∈ changedFrom d s r := by
  induction s generalizing r d j with
  | nil => simp at h1
  | cons a s ih =>
    cases r with
    | nil => simp at hl
    | cons b r =>
      simp only [changedFrom]
      cases j with
      | zero =>
        simp at h1 h2
        rw [if_pos (by simpa using h2)]
        simp [h1]
      | succ j =>
        have := ih r (by simpa using hl) (d + 1) j (by simpa using h1) (by simpa using h2)
        rw [show d + (j + 1) = d + 1 + j by omega]
        split
        · exact List.mem_cons_of_mem _ this
        · exact this

theorem firstFold_le (ids : List String) (L : List GDim) (acc : Nat) (g : GDim) (k : Nat)
    (hg : g ∈ L) (h : ∀ s, g.first = some s → s ∈ ids ∧ ids.idxOf s ≤ k) :
    L.foldl (fun acc g => match g.first with
      | none => 0
      | some s => if s ∈ ids then min acc (ids.idxOf s) else acc) acc ≤ k := by
  have mono : ∀ (L : List GDim) (acc : Nat), acc ≤ k →
      L.foldl (fun acc g => match g.first with
      | none => 0
      | some s => if s ∈ ids then min acc (ids.idxOf s) else acc) acc ≤ k := by
    intro L
    induction L with
    | nil => intro acc h; exact h
    | cons a L ih =>
      intro acc h
      rw [List.foldl_cons]
      apply ih
      cases a.first with
      | none => simp
      | some s => dsimp only; split <;> omega
  induction L generalizing acc with
  | nil => simp at hg
  | cons a L ih =>
    rw [List.foldl_cons]
    rcases List.mem_cons.1 hg with rfl | hmem
    · apply mono
      cases hf : g.first with
      | none => simp
      | some s =>
        obtain ⟨h1, h2⟩ := h s hf
        simp only [h1, if_true]
        omega
    · exact ih _ hmem

theorem lastFold_ge (ids : List String) (L : List GDim) (acc : Int) (g : GDim) (k : Nat)
    (hk : k < ids.length) (hg : g ∈ L) (h : ∀ s, g.last = some s → s ∈ ids ∧ k ≤ ids.idxOf s) :
    (k : Int) ≤ L.foldl (fun (acc : Int) g => match g.last with
      | none => (ids.length : Int) - 1
      | some s => if s ∈ ids then max acc (ids.idxOf s : Int) else acc) acc := by
  have mono : ∀ (L : List GDim) (acc : Int), (k : Int) ≤ acc →
      (k : Int) ≤ L.foldl (fun (acc : Int) g => match g.last with
      | none => (ids.length : Int) - 1
      | some s => if s ∈ ids then max acc (ids.idxOf s : Int) else acc) acc := by
    intro L
    induction L with
    | nil => intro acc h; exact h
    | cons a L ih =>
      intro acc h
      rw [List.foldl_cons]
      apply ih
      cases a.last with
      | none => dsimp only; omega
      | some s => dsimp only; split <;> omega
  induction L generalizing acc with
  | nil => simp at hg
  | cons a L ih =>
    rw [List.foldl_cons]
    rcases List.mem_cons.1 hg with rfl | hmem
    · apply mono
      cases hf : g.last with
      | none => dsimp only; omega
      | some s =>
        obtain ⟨h1, h2⟩ := h s hf
        simp only [h1, if_true]
        omega
    · exact ih _ hmem

theorem firstImpact_le (ids : List String) (L : List GDim) (g : GDim) (k : Nat) (hg : g ∈ L)
    (h : ∀ s, g.first = some s → s ∈ ids ∧ ids.idxOf s ≤ k) : firstImpact ids L ≤ k := by
  unfold firstImpact
  dsimp only
  split
  · omega
  · exact firstFold_le ids L _ g k hg h

theorem lastImpact_ge (ids : List String) (L : List GDim) (g : GDim) (k : Nat)
    (hk : k < ids.length) (hg : g ∈ L) (h : ∀ s, g.last = some s → s ∈ ids ∧ k ≤ ids.idxOf s) :
    (k : Int) ≤ lastImpact ids L := by
  unfold lastImpact
  dsimp only
  split
  · omega
  · exact lastFold_ge ids L _ g k hk hg h

theorem impact_nil (ids : List String) :
    firstImpact ids [] = 0 ∧ lastImpact ids [] = (ids.length : Int) - 1 := by
  simp [firstImpact, lastImpact]

end Verif.Mc
