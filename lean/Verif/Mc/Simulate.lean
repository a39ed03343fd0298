import Verif.Mc.ActorProps

/-!
# C18: coordinates of scheduler, actors and results

Model of the flow of grid dimensions through `MonteCarlo.simulate`
(`hermespy/core/pymonte/monte_carlo.py` 299-311, 357-371, 481-483).
The queue manager and the collector receive the dimensions in the user's order
(`self.dimensions`, lines 361 and 371); the actors receive the *sorted* list (line 365).
-/

namespace Verif.Mc

/-- The sort key of a dimension (`monte_carlo.py` 305-309). -/
def sortKey (ids : List String) (g : GDim) : Nat :=
  match g.first with
  | none => 0
  | some s => if s ∈ ids then ids.idxOf s else 0

/-- `_dimensions.sort(key=sort)` (`monte_carlo.py` 311): stable sort.  Every dimension is paired
with its position in the user's list. -/
def sortedDims (ids : List String) (dims : List GDim) : List (GDim × Nat) :=
  dims.zipIdx.mergeSort fun a b => decide (sortKey ids a.1 ≤ sortKey ids b.1)

/-- The actor as launched by `simulate` (`monte_carlo.py` 365): it addresses dimensions by their
position in the sorted list.  The state is the sample point configured for each of the user's
dimensions plus anything else (`X`); stages and evaluation are arbitrary. -/
def simActor {X Arg Art : Type} (ids : List String) (dims : List GDim) (args : Nat → List Arg)
    (exec : Nat → Arg → (Nat → Nat) × X → Except PyErr ((Nat → Nat) × X))
    (evaluate : (Nat → Nat) × X → Except PyErr Art) : Actor ((Nat → Nat) × X) Arg Art where
  ids := ids
  grid := (sortedDims ids dims).map (·.1)
  args := args
  configure := fun d i x =>
    match (sortedDims ids dims)[d]? with
    | none => .error .index
    | some g => .ok (upd x.1 g.2 i, x.2)
  exec := exec
  evaluate := evaluate

variable {X Arg Art : Type}

theorem sortedDims_of_sorted (ids : List String) (dims : List GDim)
    (h : dims.Pairwise fun a b => sortKey ids a ≤ sortKey ids b) :
    sortedDims ids dims = dims.zipIdx := by
  unfold sortedDims
  apply List.mergeSort_of_pairwise
  rw [List.pairwise_iff_getElem] at h ⊢
  intro i j hi hj hij
  simp only [List.getElem_zipIdx, decide_eq_true_eq]
  exact h i j (by simpa using hi) (by simpa using hj) hij

/-- Configuring dimension positions `d, d+1, ...` one after the other. -/
theorem configureAll_enum (A : Actor ((Nat → Nat) × X) Arg Art) (name : Nat → Nat)
    (hconf : ∀ d i x, d < A.grid.length → A.configure d i x = .ok (upd x.1 (name d) i, x.2))
    (s : Coord) (d : Nat) (x : (Nat → Nat) × X) (hlen : d + s.length ≤ A.grid.length)
    (hpt : ∀ j v, s[j]? = some v → ∃ g, A.grid[d + j]? = some g ∧ v < g.numPoints)
    (hinj : ∀ i j, i < A.grid.length → j < A.grid.length → name i = name j → i = j) :
    ∃ cfg, A.configureAll (enumFrom d s) x = .ok (cfg, x.2) ∧
      (∀ j v, s[j]? = some v → cfg (name (d + j)) = v) ∧
      (∀ u, (∀ j, j < s.length → u ≠ name (d + j)) → cfg u = x.1 u) := by
  induction s generalizing d x with
  | nil => exact ⟨x.1, rfl, by simp, by simp⟩
  | cons a s ih =>
    obtain ⟨g, hg, hlt⟩ := hpt 0 a (by simp)
    rw [Nat.add_zero] at hg
    have hd : d < A.grid.length := by simp at hlen; omega
    obtain ⟨cfg, h1, h2, h3⟩ := ih (d + 1) (upd x.1 (name d) a, x.2) (by simp at hlen; omega)
      (by
        intro j v hv
        have := hpt (j + 1) v (by simpa using hv)
        rw [show d + 1 + j = d + (j + 1) by omega]; exact this)
    refine ⟨cfg, ?_, ?_, ?_⟩
    · rw [enumFrom, Actor.configureAll, Actor.configurePoint, hg]
      simp only [hlt, if_true, hconf d a x hd]
      exact h1
    · intro j v hv
      cases j with
      | zero =>
        simp at hv
        subst hv
        rw [Nat.add_zero, h3 (name d)]
        · simp [upd]
        · intro j hj he
          have := hinj d (d + 1 + j) hd (by simp at hlen; omega) he
          omega
      | succ j =>
        rw [show d + (j + 1) = d + 1 + j by omega]
        exact h2 j v (by simpa using hv)
    · intro u hu
      rw [h3 u]
      · simp only [upd]
        rw [if_neg (by have := hu 0 (by simp); simpa using this)]
      · intro j hj
        have := hu (j + 1) (by simpa using hj)
        rw [show d + 1 + j = d + (j + 1) by omega]; exact this

/-- **C18, dimensions declared in stage order.** If the user lists the dimensions in the order of
their first impacted stages, the section `(i₁,...,i_d)` is simulated with sample point `i_k`
of the user's `k`-th dimension, for every `k`. -/
theorem C18_stage_ordered_dimensions_partial (ids : List String) (dims : List GDim)
    (args : Nat → List Arg) (exec : Nat → Arg → (Nat → Nat) × X → Except PyErr ((Nat → Nat) × X))
    (evaluate : (Nat → Nat) × X → Except PyErr Art)
    (hsorted : dims.Pairwise fun a b => sortKey ids a ≤ sortKey ids b)
    (s : Coord) (hs : IsSection (dims.map GDim.numPoints) s) (x : (Nat → Nat) × X) :
    ∃ cfg, (simActor ids dims args exec evaluate).configureAll (enumFrom 0 s) x = .ok (cfg, x.2) ∧
      ∀ k v, s[k]? = some v → cfg k = v := by
  have hgrid : (simActor ids dims args exec evaluate).grid = dims := by
    simp only [simActor, sortedDims_of_sorted ids dims hsorted]
    rw [List.zipIdx_map_fst]
  have hl : s.length = dims.length := by simpa using hs.length_eq
  obtain ⟨cfg, h1, h2, _⟩ := configureAll_enum (simActor ids dims args exec evaluate) id
    (by
      intro d i x hd
      rw [hgrid] at hd
      simp only [simActor, sortedDims_of_sorted ids dims hsorted]
      rw [List.getElem?_eq_getElem (by simpa using hd)]
      simp)
    s 0 x (by rw [hgrid]; omega)
    (by
      intro j v hv
      rw [hgrid, Nat.zero_add]
      have hj : j < s.length := (List.getElem?_eq_some_iff.1 hv).1
      refine ⟨dims[j]'(by omega), List.getElem?_eq_getElem (by omega), ?_⟩
      have := (List.forall₂_iff_get.1 hs).2 j hj (by simp; omega)
      simp only [List.get_eq_getElem, List.getElem_map] at this
      rw [List.getElem?_eq_getElem hj] at hv
      injection hv with hv
      omega)
    (by intro i j _ _ h; exact h)
  exact ⟨cfg, h1, fun k v hv => by simpa using h2 k v hv⟩

example : [(⟨2, none, none⟩ : GDim), ⟨3, some "b", none⟩].Pairwise
    fun a b => sortKey ["a", "b"] a ≤ sortKey ["a", "b"] b := by
  simp [sortKey, List.idxOf, List.findIdx, List.findIdx.go]

/-- Two dimensions with two points each, listed against the stage order. -/
def swappedDims (n m : Nat) : List GDim := [⟨n, some "b", none⟩, ⟨m, some "a", none⟩]

theorem sortedDims_swapped (n m : Nat) : sortedDims ["a", "b"] (swappedDims n m)
    = [(⟨m, some "a", none⟩, 1), (⟨n, some "b", none⟩, 0)] := by
  have h : ∀ a b : GDim × Nat, a.1.first = some "b" → b.1.first = some "a" →
      [a, b].mergeSort (fun a b => decide (sortKey ["a", "b"] a.1 ≤ sortKey ["a", "b"] b.1))
        = [b, a] := by
    intro a b ha hb
    have ka : sortKey ["a", "b"] a.1 = 1 := by simp [sortKey, ha]
    have kb : sortKey ["a", "b"] b.1 = 0 := by simp [sortKey, hb]
    simp [List.mergeSort, List.merge, List.MergeSort.Internal.splitInTwo, List.splitAt,
      List.splitAt.go, ka, kb]
  exact h _ _ rfl rfl

/-- **C18 fails.** With dimensions listed against the stage order, section `(0, 1)` is simulated
with point 1 of the first and point 0 of the second dimension: coordinates are swapped between
scheduler / result arrays and actors. -/
theorem C18_coordinates_swapped_fails (n m : Nat) (hn : 2 ≤ n) (hm : 2 ≤ m)
    (args : Nat → List Arg) (exec : Nat → Arg → (Nat → Nat) × X → Except PyErr ((Nat → Nat) × X))
    (evaluate : (Nat → Nat) × X → Except PyErr Art) (x : (Nat → Nat) × X) :
    IsSection ((swappedDims n m).map GDim.numPoints) [0, 1] ∧
    ∃ cfg, (simActor ["a", "b"] (swappedDims n m) args exec evaluate).configureAll
      (enumFrom 0 [0, 1]) x = .ok (cfg, x.2) ∧ cfg 0 = 1 ∧ cfg 1 = 0 := by
  constructor
  · exact List.Forall₂.cons (by simp [swappedDims]; omega)
      (List.Forall₂.cons (by simp; omega) List.Forall₂.nil)
  · refine ⟨upd (upd x.1 1 0) 0 1, ?_, by simp [upd], by simp [upd]⟩
    have h0 : 0 < m := by omega
    have h1 : 1 < n := by omega
    simp [enumFrom, Actor.configureAll, Actor.configurePoint, simActor, sortedDims_swapped, h0, h1]

/-- A batch yields samples only if every coordinate is a valid point of the *actor's* dimension
at that position. -/
theorem runBatch_in_range (A : Actor X Arg Art) (batch : List Coord) (x x' : X)
    (r : List (Sample Art)) (h : A.runBatch batch x = .ok (x', r)) (L : Nat)
    (hlen : ∀ s ∈ batch, s.length = L) :
    ∀ s ∈ batch, ∀ (j v : Nat), s[j]? = some v → ∃ g, A.grid[j]? = some g ∧ v < g.numPoints := by
  have hconf : ∀ (P : List (Nat × Nat)) (x x' : X), A.configureAll P x = .ok x' →
      ∀ p ∈ P, ∃ g, A.grid[p.1]? = some g ∧ p.2 < g.numPoints := by
    intro P
    induction P with
    | nil => intro _ _ _ p hp; simp at hp
    | cons q P ih =>
      intro x x' hx p hp
      obtain ⟨d, i⟩ := q
      rw [Actor.configureAll] at hx
      cases hc : A.configurePoint d i x with
      | error e => rw [hc] at hx; simp at hx
      | ok x1 =>
        rw [hc] at hx
        rcases List.mem_cons.1 hp with rfl | hp
        · rw [Actor.configurePoint] at hc
          cases hg : A.grid[d]? with
          | none => rw [hg] at hc; simp at hc
          | some g =>
            rw [hg] at hc
            by_cases hlt : i < g.numPoints
            · exact ⟨g, rfl, hlt⟩
            · simp [hlt] at hc
        · exact ih x1 x' hx p hp
  have hsecs : ∀ (ss : List Coord) (rec : Coord) (x x' : X) (r : List (Sample Art)),
      A.runSections rec ss x = .ok (x', r) → rec.length = L → (∀ s ∈ ss, s.length = L) →
      (∀ (j v : Nat), rec[j]? = some v → ∃ g, A.grid[j]? = some g ∧ v < g.numPoints) →
      ∀ s ∈ ss, ∀ (j v : Nat), s[j]? = some v → ∃ g, A.grid[j]? = some g ∧ v < g.numPoints := by
    intro ss
    induction ss with
    | nil => intro _ _ _ _ _ _ _ _ s hs; simp at hs
    | cons a ss ih =>
      intro rec x x' r hx hrl hsl hrec
      rw [Actor.runSections] at hx
      cases hrs : A.runSection rec a x with
      | error e => rw [hrs] at hx; simp at hx
      | ok y =>
        obtain ⟨x1, r1⟩ := y
        rw [hrs] at hx
        simp only at hx
        have ha : ∀ (j v : Nat), a[j]? = some v → ∃ g, A.grid[j]? = some g ∧ v < g.numPoints := by
          intro j v hv
          by_cases he : a[j]? = rec[j]?
          · exact hrec j v (he ▸ hv)
          · have hmem := changedFrom_complete a rec (by rw [hrl, hsl a (by simp)]) 0 j v hv he
            rw [Nat.zero_add] at hmem
            unfold Actor.runSection at hrs
            dsimp only at hrs
            cases hc : A.configureAll (changedFrom 0 a rec) x with
            | error e => rw [hc] at hrs; simp at hrs
            | ok x2 => exact hconf _ _ _ hc _ hmem
        cases hr2 : A.runSections a ss x1 with
        | error e => rw [hr2] at hx; simp at hx
        | ok z =>
          obtain ⟨x2, r2⟩ := z
          intro s hs
          rcases List.mem_cons.1 hs with rfl | hs
          · exact ha
          · exact ih a x1 x2 r2 hr2 (hsl a (by simp)) (fun t ht => hsl t (by simp [ht])) ha s hs
  match batch, h with
  | [], h => simp [Actor.runBatch] at h
  | s :: ss, h =>
    rw [Actor.runBatch] at h
    cases hc : A.configureAll (enumFrom 0 s) x with
    | error e => rw [hc] at h; simp at h
    | ok x1 =>
      rw [hc] at h
      simp only at h
      refine hsecs (s :: ss) s x1 x' r h (hlen s (by simp)) hlen ?_
      intro j v hv
      have gen : ∀ (s : Coord) (d j v : Nat), s[j]? = some v → (d + j, v) ∈ enumFrom d s := by
        intro s
        induction s with
        | nil => intro d j v h; simp at h
        | cons a s ih =>
          intro d j v h
          cases j with
          | zero => simp at h; simp [enumFrom, h]
          | succ j =>
            have := ih (d + 1) j v (by simpa using h)
            rw [show d + (j + 1) = d + 1 + j by omega]
            exact List.mem_cons_of_mem _ this
      have hm := gen s 0 j v hv
      rw [Nat.zero_add] at hm
      exact hconf _ _ _ hc _ hm

/-- **C18 fails, losing all samples.** If the dimension listed first has fewer points and the
later stage, every default batch (the whole grid) of the simulation is discarded: no sample at
all reaches the results, whatever the stages compute. -/
theorem C18_all_samples_lost_fails (n m : Nat) (hn : 1 ≤ n) (hnm : n < m)
    (args : Nat → List Arg) (exec : Nat → Arg → (Nat → Nat) × X → Except PyErr ((Nat → Nat) × X))
    (evaluate : (Nat → Nat) × X → Except PyErr Art) (x : (Nat → Nat) × X) :
    (simActor ["a", "b"] (swappedDims n m) args exec evaluate).runBatchCaught true
      (ndindex ((swappedDims n m).map GDim.numPoints)) x = .ok [] := by
  unfold Actor.runBatchCaught
  cases h : (simActor ["a", "b"] (swappedDims n m) args exec evaluate).runBatch
      (ndindex ((swappedDims n m).map GDim.numPoints)) x with
  | error e => rfl
  | ok y =>
    exfalso
    obtain ⟨x', r⟩ := y
    have hm : [0, n] ∈ ndindex ((swappedDims n m).map GDim.numPoints) := by
      rw [mem_ndindex]
      exact List.Forall₂.cons hn (List.Forall₂.cons hnm List.Forall₂.nil)
    obtain ⟨g, hg, hlt⟩ := runBatch_in_range _ _ _ _ _ h 2
      (by
        intro s hs
        have := (mem_ndindex.1 hs).length_eq
        simpa [swappedDims] using this) [0, n] hm 1 n (by simp)
    simp [simActor, sortedDims_swapped] at hg
    subst hg
    simp at hlt

end Verif.Mc
