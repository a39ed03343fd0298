import Verif.Np
import Mathlib.Data.List.Nodup
import Mathlib.Data.List.Forall2
import Mathlib.Algebra.Order.BigOperators.Group.List
import Mathlib.Data.Rat.Defs
import Mathlib.Algebra.Order.Field.Rat
import Mathlib.Tactic.Linarith
import Mathlib.Tactic.FieldSimp
import Mathlib.Tactic.Ring

/-!
# Monte Carlo queue manager

Model of `MonteCarloQueueManager` (`hermespy/core/pymonte/actors.py` 23-148).
Remote method calls are atomic: the manager is a single-threaded ray actor.
-/

namespace Verif.Mc

/-- Coordinates of a grid section, one sample point index per grid dimension. -/
abbrev Coord := List Nat

/-- `np.ndindex(*dims)`: all coordinates in row-major order
(used at `actors.py` 61-63). -/
def ndindex : List Nat → List Coord
  | [] => [[]]
  | d :: ds => (List.range d).flatMap fun i => (ndindex ds).map (i :: ·)

/-- State of the queue manager (`actors.py` 30-35, 47-75).
The task counter and flag arrays are maps from coordinates; every access of the code uses
coordinates of the grid, so out-of-range accesses to these two arrays do not arise
(`C15_schedule` proves that only grid coordinates are ever dispatched). -/
structure Queue where
  dims : List Nat
  numSamples : Nat
  batchSize : Nat
  numGrid : Nat
  active : List Coord
  numActive : Nat
  count : Coord → Nat
  flags : Coord → Bool

/-- Overwrite one entry of a coordinate-indexed array. -/
def setAt {α : Type} (f : Coord → α) (c : Coord) (v : α) : Coord → α :=
  fun x => if x = c then v else f x

/-- `MonteCarloQueueManager.__init__` (`actors.py` 37-75).  The empty grid has the single
section `()` and always uses batches of one (lines 67-73). -/
def Queue.init (dims : List Nat) (numSamples : Nat) (batchSize : Option Nat) : Queue where
  dims := dims
  numSamples := numSamples
  batchSize := if dims = [] then 1 else batchSize.getD dims.prod
  numGrid := if dims = [] then 1 else dims.prod
  active := ndindex dims
  numActive := if dims = [] then 1 else dims.prod
  count := fun _ => 0
  flags := fun _ => true

/-- `disable_section` (`actors.py` 111-133). -/
def Queue.disable (q : Queue) (c : Coord) : Queue :=
  match q.active.idxOf? c with
  | none => q
  | some i =>
    { q with
      active := q.active.eraseIdx i
      flags := setAt q.flags c false
      numActive := q.numActive - 1 }

/-- The loop of `next_batch` (`actors.py` 91-107); `n` iterations are left, `t` is the loop
variable, `batch` the list built so far.  Reading past the coordinate array is an
`IndexError`. -/
def Queue.batchLoop : Nat → Nat → Nat → Queue → List Coord → Except PyErr (Queue × List Coord)
  | 0, _, _, q, batch => .ok (q, batch)
  | n + 1, t, skip, q, batch =>
    match q.active[(((t : Int) - (skip : Int)) % (q.numActive : Int)).toNat]? with
    | none => .error .index
    | some c =>
      let batch := batch ++ [c]
      let taskCount := q.count c + 1
      let q := { q with count := setAt q.count c taskCount }
      if taskCount ≥ q.numSamples then
        let q := q.disable c
        if q.numActive < 1 then .ok (q, batch) else Queue.batchLoop n (t + 1) (skip + 1) q batch
      else Queue.batchLoop n (t + 1) skip q batch

/-- `next_batch` (`actors.py` 77-109). -/
def Queue.nextBatch (q : Queue) : Except PyErr (Queue × List Coord) :=
  if q.numActive < 1 then .ok (q, []) else Queue.batchLoop q.batchSize 0 0 q []

/-- First component of `query_progress` (`actors.py` 135-148).
`grid_task_count[active_section_coordinates]` is numpy integer-array indexing of the *first*
axis by every entry of the coordinate matrix: an `IndexError` if an entry is not below the
first grid dimension, otherwise one sub-array per entry, all of which are summed.  The task
counter of the empty grid has shape `(1)`. -/
def Queue.progress (q : Queue) : Except PyErr ℚ :=
  if q.numActive < 1 then .ok 1
  else
    let entries := q.active.flatten
    if entries.any fun v => decide (q.dims.headD 1 ≤ v) then .error .index
    else
      let total := (entries.map fun v =>
        ((ndindex q.dims.tail).map fun r => q.count (v :: r)).sum).sum
      .ok ((((q.numGrid : ℚ) - q.numActive) * q.numSamples + total) / (q.numGrid * q.numSamples))

/-- Calls arriving at the manager from actors (`next`) and the collector (`disable`). -/
inductive Op
  | next
  | disable (c : Coord)

/-- What is observable: sections handed out and sections cancelled, in order. -/
inductive Ev
  | dispatched (c : Coord)
  | disabled (c : Coord)
  deriving DecidableEq

/-- One remote call. -/
def Queue.step (q : Queue) : Op → Except PyErr (Queue × List Ev)
  | .next => (q.nextBatch).map fun r => (r.1, r.2.map Ev.dispatched)
  | .disable c => .ok (q.disable c, [Ev.disabled c])

/-- A history of remote calls, with the trace of observable events. -/
def Queue.run (q : Queue) : List Op → Except PyErr (Queue × List Ev)
  | [] => .ok (q, [])
  | op :: ops =>
    match q.step op with
    | .error e => .error e
    | .ok (q', ev) =>
      match q'.run ops with
      | .error e => .error e
      | .ok (q'', evs) => .ok (q'', ev ++ evs)

/-! ## Specification -/

/-- `c` addresses a section of the grid with the given numbers of sample points. -/
def IsSection (dims : List Nat) (c : Coord) : Prop := List.Forall₂ (· < ·) c dims

theorem mem_ndindex {dims : List Nat} {c : Coord} : c ∈ ndindex dims ↔ IsSection dims c := by
  induction dims generalizing c with
  | nil => simp [ndindex, IsSection]
  | cons d ds ih =>
    simp only [ndindex, List.mem_flatMap, List.mem_range, List.mem_map, IsSection]
    constructor
    · rintro ⟨i, hi, r, hr, rfl⟩
      exact List.Forall₂.cons hi (ih.1 hr)
    · intro h
      cases h with
      | cons hi hr => exact ⟨_, hi, _, ih.2 hr, rfl⟩

theorem nodup_ndindex (dims : List Nat) : (ndindex dims).Nodup := by
  induction dims with
  | nil => simp [ndindex]
  | cons d ds ih =>
    rw [ndindex, List.nodup_flatMap]
    refine ⟨fun i _ => ih.map (fun a b h => by simpa using h), ?_⟩
    refine List.Pairwise.imp_of_mem ?_ (List.nodup_range (n := d))
    intro a b _ _ hab
    simp only [Function.onFun, List.disjoint_left, List.mem_map]
    rintro x ⟨y, _, rfl⟩ ⟨z, _, hz⟩
    simp at hz
    exact hab hz.1.symm

theorem length_ndindex (dims : List Nat) : (ndindex dims).length = dims.prod := by
  induction dims with
  | nil => simp [ndindex]
  | cons d ds ih => simp [ndindex, List.length_flatMap, ih]

/-! ## Invariant -/

/-- What holds after every history with trace `tr`. -/
structure Inv (dims : List Nat) (S : Nat) (q : Queue) (tr : List Ev) : Prop where
  dims_eq : q.dims = dims
  samples_eq : q.numSamples = S
  grid_eq : q.numGrid = dims.prod
  len : q.numActive = q.active.length
  nodup : q.active.Nodup
  act : ∀ c ∈ q.active, IsSection dims c ∧ q.count c < S ∧ Ev.disabled c ∉ tr
  cnt : ∀ c, q.count c = tr.count (Ev.dispatched c)
  inact : ∀ c, IsSection dims c → c ∉ q.active → q.count c = S ∨ Ev.disabled c ∈ tr
  le : ∀ c, q.count c ≤ S
  grid : ∀ c, 0 < q.count c → IsSection dims c
  order : tr.Pairwise fun a b => ∀ c, a = Ev.disabled c → b ≠ Ev.dispatched c
  flag : ∀ c, IsSection dims c → (q.flags c = true ↔ c ∈ q.active)

theorem inv_init (dims : List Nat) (S : Nat) (b : Option Nat) (hS : 1 ≤ S) :
    Inv dims S (Queue.init dims S b) [] where
  dims_eq := rfl
  samples_eq := rfl
  grid_eq := by unfold Queue.init; dsimp; split <;> simp_all
  len := by unfold Queue.init; dsimp; rw [length_ndindex]; split <;> simp_all
  nodup := nodup_ndindex dims
  act := fun c hc => ⟨mem_ndindex.1 hc, hS, by simp⟩
  cnt := by simp [Queue.init]
  inact := fun c hc h => absurd (mem_ndindex.2 hc) h
  le := by simp [Queue.init]
  grid := by simp [Queue.init]
  order := by simp
  flag := fun c hc => by simp [Queue.init, mem_ndindex, hc]

theorem disable_eq_of_mem (q : Queue) (c : Coord) (h : c ∈ q.active) :
    q.disable c = { q with active := q.active.erase c, flags := setAt q.flags c false,
                           numActive := q.numActive - 1 } := by
  unfold Queue.disable
  have : q.active.idxOf? c = some (q.active.idxOf c) := by
    rw [List.idxOf?_eq_some_iff]
    refine ⟨List.idxOf_lt_length_of_mem h, by simp, ?_⟩
    intro j hj
    have := List.not_of_lt_findIdx (p := (· == c)) (xs := q.active) (i := j) hj
    simpa using this
  rw [this]
  simp only [List.erase_eq_eraseIdx_of_idxOf]

theorem disable_eq_of_not_mem (q : Queue) (c : Coord) (h : c ∉ q.active) :
    q.disable c = q := by
  unfold Queue.disable
  have : q.active.idxOf? c = none := by simpa [List.idxOf?_eq_none_iff] using h
  rw [this]

theorem count_append_dispatched (tr : List Ev) (c x : Coord) :
    (tr ++ [Ev.dispatched c]).count (Ev.dispatched x)
      = tr.count (Ev.dispatched x) + if x = c then 1 else 0 := by
  rw [List.count_append]
  congr 1
  by_cases h : x = c
  · simp [h]
  · have : Ev.dispatched c ≠ Ev.dispatched x := by
      intro h'; injection h' with h'; exact h h'.symm
    simp [h, List.count_cons, this]

/-- Cancelling a section keeps the invariant. -/
theorem inv_disable {dims : List Nat} {S : Nat} {q : Queue} {tr : List Ev} (h : Inv dims S q tr)
    (c : Coord) : Inv dims S (q.disable c) (tr ++ [Ev.disabled c]) := by
  have hcnt : ∀ x, (tr ++ [Ev.disabled c]).count (Ev.dispatched x) = tr.count (Ev.dispatched x) := by
    intro x; simp [List.count_append, List.count_cons]
  have hord : (tr ++ [Ev.disabled c]).Pairwise
      fun a b => ∀ c, a = Ev.disabled c → b ≠ Ev.dispatched c := by
    rw [List.pairwise_append]
    refine ⟨h.order, by simp, ?_⟩
    intro a _ b hb c' _
    simp at hb
    simp [hb]
  by_cases hc : c ∈ q.active
  · rw [disable_eq_of_mem q c hc]
    refine ⟨h.dims_eq, h.samples_eq, h.grid_eq, ?_, h.nodup.erase c, ?_, ?_, ?_, h.le, h.grid,
      hord, ?_⟩
    · simp [List.length_erase_of_mem hc, h.len]
    · intro x hx
      have hx' := (h.nodup.mem_erase_iff).1 hx
      obtain ⟨h1, h2, h3⟩ := h.act x hx'.2
      refine ⟨h1, h2, ?_⟩
      simp only [List.mem_append, List.mem_singleton, not_or]
      refine ⟨h3, ?_⟩
      intro he; injection he with he; exact hx'.1 he
    · intro x; rw [hcnt]; exact h.cnt x
    · intro x hx hxa
      by_cases hxc : x = c
      · right; simp [hxc]
      · have : x ∉ q.active := by
          intro hm; exact hxa ((h.nodup.mem_erase_iff).2 ⟨hxc, hm⟩)
        rcases h.inact x hx this with h1 | h1
        · exact Or.inl h1
        · right; simp [h1]
    · intro x hx
      simp only [setAt, h.nodup.mem_erase_iff]
      by_cases hxc : x = c
      · simp [hxc]
      · simp [hxc, h.flag x hx]
  · rw [disable_eq_of_not_mem q c hc]
    refine ⟨h.dims_eq, h.samples_eq, h.grid_eq, h.len, h.nodup, ?_, ?_, ?_, h.le, h.grid, hord,
      h.flag⟩
    · intro x hx
      obtain ⟨h1, h2, h3⟩ := h.act x hx
      refine ⟨h1, h2, ?_⟩
      simp only [List.mem_append, List.mem_singleton, not_or]
      refine ⟨h3, ?_⟩
      intro he; injection he with he; exact hc (he ▸ hx)
    · intro x; rw [hcnt]; exact h.cnt x
    · intro x hx hxa
      rcases h.inact x hx hxa with h1 | h1
      · exact Or.inl h1
      · right; simp [h1]

/-- The state after dispatching `c` once (loop body, `actors.py` 95-107). -/
def bump (q : Queue) (c : Coord) : Queue :=
  let q' := { q with count := setAt q.count c (q.count c + 1) }
  if q.count c + 1 ≥ q.numSamples then q'.disable c else q'

theorem bump_active (q : Queue) (c : Coord) (hc : c ∈ q.active) :
    (bump q c).active = if q.count c + 1 ≥ q.numSamples then q.active.erase c else q.active := by
  unfold bump
  dsimp only
  split
  · rw [disable_eq_of_mem _ c (by exact hc)]
  · rfl

theorem bump_count (q : Queue) (c : Coord) (hc : c ∈ q.active) :
    (bump q c).count = setAt q.count c (q.count c + 1) := by
  unfold bump
  dsimp only
  split
  · rw [disable_eq_of_mem _ c (by exact hc)]
  · rfl

theorem bump_batchSize (q : Queue) (c : Coord) (hc : c ∈ q.active) :
    (bump q c).batchSize = q.batchSize := by
  unfold bump
  dsimp only
  split
  · rw [disable_eq_of_mem _ c (by exact hc)]
  · rfl

theorem inv_bump {dims : List Nat} {S : Nat} {q : Queue} {tr : List Ev} (h : Inv dims S q tr)
    (c : Coord) (hc : c ∈ q.active) : Inv dims S (bump q c) (tr ++ [Ev.dispatched c]) := by
  obtain ⟨hg, hlt, hnd⟩ := h.act c hc
  have hord : (tr ++ [Ev.dispatched c]).Pairwise
      fun a b => ∀ c, a = Ev.disabled c → b ≠ Ev.dispatched c := by
    rw [List.pairwise_append]
    refine ⟨h.order, by simp, ?_⟩
    intro a ha b hb c' hac
    simp at hb
    subst hb hac
    intro he; injection he with he; subst he
    exact hnd ha
  have hcnt : ∀ x, setAt q.count c (q.count c + 1) x
      = (tr ++ [Ev.dispatched c]).count (Ev.dispatched x) := by
    intro x
    rw [count_append_dispatched, ← h.cnt]
    unfold setAt
    split
    · rename_i hx; rw [hx]
    · rfl
  have hle : ∀ x, setAt q.count c (q.count c + 1) x ≤ S := by
    intro x; unfold setAt; split
    · omega
    · exact h.le x
  have hgrid : ∀ x, 0 < setAt q.count c (q.count c + 1) x → IsSection dims x := by
    intro x; unfold setAt; split
    · rename_i hx; intro _; rw [hx]; exact hg
    · exact h.grid x
  unfold bump
  dsimp only
  split
  · rename_i hge
    rw [disable_eq_of_mem _ c (by exact hc)]
    refine ⟨h.dims_eq, h.samples_eq, h.grid_eq, ?_, h.nodup.erase c, ?_, hcnt, ?_, hle, hgrid,
      hord, ?_⟩
    · simp [List.length_erase_of_mem hc, h.len]
    · intro x hx
      have hx' := (h.nodup.mem_erase_iff).1 hx
      obtain ⟨h1, h2, h3⟩ := h.act x hx'.2
      refine ⟨h1, ?_, by simp [h3]⟩
      simp [setAt, hx'.1, h2]
    · intro x hx hxa
      by_cases hxc : x = c
      · left
        rw [h.samples_eq] at hge
        simp only [setAt, hxc, if_true]
        omega
      · have : x ∉ q.active := by
          intro hm; exact hxa ((h.nodup.mem_erase_iff).2 ⟨hxc, hm⟩)
        rcases h.inact x hx this with h1 | h1
        · left; simp [setAt, hxc, h1]
        · right; simp [h1]
    · intro x hx
      simp only [setAt, h.nodup.mem_erase_iff]
      by_cases hxc : x = c
      · simp [hxc]
      · simp [hxc, h.flag x hx]
  · rename_i hge
    rw [h.samples_eq] at hge
    refine ⟨h.dims_eq, h.samples_eq, h.grid_eq, h.len, h.nodup, ?_, hcnt, ?_, hle, hgrid, hord,
      h.flag⟩
    · intro x hx
      obtain ⟨h1, h2, h3⟩ := h.act x hx
      refine ⟨h1, ?_, by simp [h3]⟩
      dsimp only [setAt]; split
      · omega
      · exact h2
    · intro x hx hxa
      have hxc : x ≠ c := fun he => hxa (he ▸ hc)
      rcases h.inact x hx hxa with h1 | h1
      · left; simp [setAt, hxc, h1]
      · right; simp [h1]

/-- One iteration of the loop in terms of `bump`. -/
theorem batchLoop_succ (n t skip : Nat) (q : Queue) (batch : List Coord) (c : Coord)
    (hget : q.active[(((t : Int) - (skip : Int)) % (q.numActive : Int)).toNat]? = some c) :
    Queue.batchLoop (n + 1) t skip q batch =
      if q.count c + 1 ≥ q.numSamples then
        if (bump q c).numActive < 1 then .ok (bump q c, batch ++ [c])
        else Queue.batchLoop n (t + 1) (skip + 1) (bump q c) (batch ++ [c])
      else Queue.batchLoop n (t + 1) skip (bump q c) (batch ++ [c]) := by
  rw [Queue.batchLoop, hget]
  dsimp only
  unfold bump
  split <;> rfl

/-- Outstanding work: samples that may still be dispatched. -/
def remaining (S : Nat) (q : Queue) : Nat := (q.active.map fun c => S - q.count c).sum

theorem sum_map_update (S : Nat) (L : List Coord) (hL : L.Nodup) (f : Coord → Nat) (c : Coord)
    (hc : c ∈ L) (hlt : f c < S) :
    (L.map fun x => S - setAt f c (f c + 1) x).sum + 1 = (L.map fun x => S - f x).sum := by
  induction L with
  | nil => simp at hc
  | cons a L ih =>
    simp only [List.map_cons, List.sum_cons]
    rw [List.nodup_cons] at hL
    by_cases hac : a = c
    · subst hac
      have : (L.map fun x => S - setAt f a (f a + 1) x) = L.map fun x => S - f x := by
        apply List.map_congr_left
        intro x hx
        have : x ≠ a := fun he => hL.1 (he ▸ hx)
        simp [setAt, this]
      rw [this]
      simp only [setAt, if_true]
      omega
    · have := ih hL.2 (by simpa [Ne.symm hac] using hc)
      rw [← this]
      simp only [setAt, if_neg hac]
      omega

theorem sum_map_erase (S : Nat) (L : List Coord) (f : Coord → Nat) (c : Coord) (hc : c ∈ L) :
    ((L.erase c).map fun x => S - f x).sum + (S - f c) = (L.map fun x => S - f x).sum := by
  have := (List.perm_cons_erase hc).map (fun x => S - f x)
  have := this.sum_eq
  simp only [List.map_cons, List.sum_cons] at this
  omega

theorem remaining_bump {dims : List Nat} {S : Nat} {q : Queue} {tr : List Ev}
    (h : Inv dims S q tr) (c : Coord) (hc : c ∈ q.active) :
    remaining S (bump q c) + 1 = remaining S q := by
  have hlt := (h.act c hc).2.1
  unfold remaining
  rw [bump_active q c hc, bump_count q c hc, ← sum_map_update S q.active h.nodup q.count c hc hlt]
  congr 1
  split
  · rename_i hge
    rw [h.samples_eq] at hge
    rw [← sum_map_erase S q.active _ c hc]
    simp only [setAt, if_true]
    omega
  · rfl

theorem remaining_disable {dims : List Nat} {S : Nat} {q : Queue} {tr : List Ev}
    (_h : Inv dims S q tr) (c : Coord) : remaining S (q.disable c) ≤ remaining S q := by
  by_cases hc : c ∈ q.active
  · rw [disable_eq_of_mem q c hc]
    unfold remaining
    dsimp only
    rw [← sum_map_erase S q.active _ c hc]
    omega
  · rw [disable_eq_of_not_mem q c hc]

/-- The loop keeps the invariant, never fails, and dispatches at most `n`, and at least one if
`n > 0`, sections. -/
theorem batchLoop_ok {dims : List Nat} {S : Nat} (n t skip : Nat) (q : Queue) (tr : List Ev)
    (batch : List Coord) (h : Inv dims S q tr) (hact : 0 < q.numActive) :
    ∃ q' new, Queue.batchLoop n t skip q batch = .ok (q', batch ++ new) ∧
      Inv dims S q' (tr ++ new.map Ev.dispatched) ∧ new.length ≤ n ∧ (0 < n → 0 < new.length) ∧
      remaining S q' + new.length = remaining S q ∧ q'.batchSize = q.batchSize := by
  induction n generalizing t skip q tr batch with
  | zero =>
    exact ⟨q, [], by simp [Queue.batchLoop], by simpa using h, by simp, by simp, by simp, rfl⟩
  | succ n ih =>
    have hidx : (((t : Int) - (skip : Int)) % (q.numActive : Int)).toNat < q.active.length := by
      rw [← h.len]
      have h0 := Int.emod_nonneg ((t : Int) - (skip : Int)) (b := (q.numActive : Int)) (by omega)
      have h1 := Int.emod_lt_of_pos ((t : Int) - (skip : Int)) (b := (q.numActive : Int)) (by omega)
      omega
    obtain ⟨c, hget⟩ : ∃ c, q.active[(((t : Int) - (skip : Int)) % (q.numActive : Int)).toNat]?
        = some c := ⟨_, List.getElem?_eq_getElem hidx⟩
    have hc : c ∈ q.active := List.mem_of_getElem? hget
    rw [batchLoop_succ n t skip q batch c hget]
    have hb := inv_bump h c hc
    have hr := remaining_bump h c hc
    have hbs := bump_batchSize q c hc
    have key : ∀ t skip, 0 < (bump q c).numActive → ∃ q' new,
        Queue.batchLoop n t skip (bump q c) (batch ++ [c]) = .ok (q', batch ++ new) ∧
        Inv dims S q' (tr ++ new.map Ev.dispatched) ∧ new.length ≤ n + 1 ∧
        (0 < n + 1 → 0 < new.length) ∧ remaining S q' + new.length = remaining S q ∧
        q'.batchSize = q.batchSize := by
      intro t skip hpos
      obtain ⟨q', new, h1, h2, h3, _, h4, h5⟩ := ih t skip (bump q c) _ (batch ++ [c]) hb hpos
      refine ⟨q', c :: new, by simpa using h1, by simpa using h2, by simp; omega, by simp, ?_,
        by rw [h5, hbs]⟩
      simp only [List.length_cons]; omega
    split
    · split
      · refine ⟨bump q c, [c], rfl, by simpa using hb, by simp, by simp, by simp; omega, hbs⟩
      · exact key _ _ (by omega)
    · rename_i hlt
      apply key
      have : (bump q c).numActive = q.numActive := by
        unfold bump; dsimp only; rw [if_neg hlt]
      omega

theorem nextBatch_ok {dims : List Nat} {S : Nat} (q : Queue) (tr : List Ev)
    (h : Inv dims S q tr) :
    ∃ q' new, q.nextBatch = .ok (q', new) ∧
      Inv dims S q' (tr ++ new.map Ev.dispatched) ∧ new.length ≤ q.batchSize ∧
      (q.active ≠ [] → 0 < q.batchSize → 0 < new.length) ∧
      remaining S q' + new.length = remaining S q ∧ q'.batchSize = q.batchSize ∧
      (q.active = [] → new = []) := by
  unfold Queue.nextBatch
  split
  · rename_i h0
    refine ⟨q, [], rfl, by simpa using h, by simp, ?_, by simp, rfl, fun _ => rfl⟩
    intro hne
    have := List.length_pos_iff.2 hne
    have := h.len
    omega
  · rename_i h0
    obtain ⟨q', new, h1, h2, h3, h4, h5, h6⟩ := batchLoop_ok q.batchSize 0 0 q tr [] h (by omega)
    refine ⟨q', new, by simpa using h1, h2, h3, fun _ => h4, h5, h6, ?_⟩
    intro he
    have := h.len
    rw [he] at this
    simp at this
    omega

/-- Number of batch requests in a history. -/
def numNext : List Op → Nat
  | [] => 0
  | .next :: ops => numNext ops + 1
  | .disable _ :: ops => numNext ops

theorem run_ok {dims : List Nat} {S : Nat} (ops : List Op) (q : Queue) (tr : List Ev)
    (h : Inv dims S q tr) :
    ∃ q' new, q.run ops = .ok (q', new) ∧ Inv dims S q' (tr ++ new) ∧
      q'.batchSize = q.batchSize ∧ remaining S q' ≤ remaining S q ∧
      (0 < q.batchSize → remaining S q' + min (numNext ops) (remaining S q) ≤ remaining S q) := by
  induction ops generalizing q tr with
  | nil => exact ⟨q, [], rfl, by simpa using h, rfl, le_rfl, by simp [numNext]⟩
  | cons op ops ih =>
    cases op with
    | next =>
      obtain ⟨q1, new1, h1, h2, _, h4, h5, h6, h7⟩ := nextBatch_ok q tr h
      obtain ⟨q2, new2, g1, g2, g3, g5, g4⟩ := ih q1 _ h2
      refine ⟨q2, new1.map Ev.dispatched ++ new2, ?_, by simpa using g2, by rw [g3, h6],
        by omega, ?_⟩
      · simp [Queue.run, Queue.step, h1, Except.map, g1]
      · intro hb
        have := g4 (by omega)
        simp only [numNext]
        by_cases he : q.active = []
        · have : remaining S q = 0 := by simp [remaining, he]
          omega
        · have := h4 he hb
          omega
    | disable c =>
      obtain ⟨q2, new2, g1, g2, g3, g5, g4⟩ := ih (q.disable c) _ (inv_disable h c)
      have hbs : (q.disable c).batchSize = q.batchSize := by
        unfold Queue.disable; split <;> rfl
      refine ⟨q2, Ev.disabled c :: new2, ?_, by simpa using g2, by rw [g3, hbs],
        g5.trans (remaining_disable h c), ?_⟩
      · simp [Queue.run, Queue.step, g1]
      · intro hb
        have := g4 (by omega)
        have := remaining_disable h c
        simp only [numNext]
        omega

theorem remaining_init (dims : List Nat) (S : Nat) (b : Option Nat) :
    remaining S (Queue.init dims S b) = dims.prod * S := by
  simp [remaining, Queue.init, length_ndindex]

theorem remaining_zero {dims : List Nat} {S : Nat} {q : Queue} {tr : List Ev}
    (h : Inv dims S q tr) (h0 : remaining S q = 0) : q.active = [] := by
  unfold remaining at h0
  match hq : q.active with
  | [] => rfl
  | c :: cs =>
    have := (h.act c (by simp [hq])).2.1
    rw [hq] at h0
    simp at h0
    omega

end Verif.Mc
