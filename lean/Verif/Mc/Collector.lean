import Verif.Mc.Scalar

/-!
# C20: the collector

Model of `MonteCarloCollector` and of the result buffers of the actors
(`hermespy/core/pymonte/actors.py` 180-252, 351-365) as a transition system.

Every actor `a` has a buffer of finished samples (`MonteCarloActor.__results`, filled at line
355) and the collector holds exactly one outstanding `fetch_results` request per actor
(`__future_map`, lines 186 and 198).  The steps are

* `produce`: the actor finishes a batch (line 355),
* `fetch`: the actor answers the outstanding request with its buffer, which is cleared (363-365),
* `process`: the collector's loop books the samples of an answered request (line 194),
* `requeue`: the loop replaces that request by a new one (lines 197-198).

`process` and `requeue` are separate steps because `fetch_results` of the collector runs
concurrently to the loop (`max_concurrency=2`, `monte_carlo.py` 370).
-/

namespace Verif.Mc

/-- State of the outstanding request of one actor. -/
inductive Fut (α : Type)
  | requested
  | answered (s : List α)
  | processed (s : List α)

/-- The joint state; `produced` is a ghost variable recording all finished samples. -/
structure CState (α : Type) where
  buffer : Nat → List α
  fut : Nat → Fut α
  booked : List α
  produced : List α

/-- All requests are outstanding, nothing has been produced (`actors.py` 186). -/
def CState.init (α : Type) : CState α := ⟨fun _ => [], fun _ => .requested, [], []⟩

/-- Pointwise update. -/
def updAt {β : Type} (f : Nat → β) (k : Nat) (v : β) : Nat → β := fun j => if j = k then v else f j

/-- The steps with `n` actors. -/
inductive CStep {α : Type} (n : Nat) : CState α → CState α → Prop
  | produce (st : CState α) (a : Nat) (batch : List α) (ha : a < n) :
      CStep n st { st with
        buffer := updAt st.buffer a (st.buffer a ++ batch)
        produced := st.produced ++ batch }
  | fetch (st : CState α) (a : Nat) (ha : a < n) (h : st.fut a = .requested) :
      CStep n st { st with
        buffer := updAt st.buffer a []
        fut := updAt st.fut a (.answered (st.buffer a)) }
  | process (st : CState α) (a : Nat) (s : List α) (ha : a < n) (h : st.fut a = .answered s) :
      CStep n st { st with
        booked := st.booked ++ s
        fut := updAt st.fut a (.processed s) }
  | requeue (st : CState α) (a : Nat) (s : List α) (ha : a < n) (h : st.fut a = .processed s) :
      CStep n st { st with fut := updAt st.fut a .requested }

/-- States reachable by any schedule. -/
inductive Reachable {α : Type} (n : Nat) : CState α → Prop
  | init : Reachable n (CState.init α)
  | step {st st' : CState α} : Reachable n st → CStep n st st' → Reachable n st'

/-- What the final `fetch_results` books (`actors.py` 246-250): it waits until every outstanding
request is answered and then processes the contents of *all* requests in the map. -/
def CState.final {α : Type} (n : Nat) (st : CState α) : List α :=
  st.booked ++ (List.range n).flatMap fun a =>
    match st.fut a with
    | .requested => []
    | .answered s => s
    | .processed s => s

/-- Samples of actor `a` that are finished but not yet booked. -/
def CState.unbooked {α : Type} (st : CState α) (a : Nat) : List α :=
  (match st.fut a with
    | .answered s => s
    | _ => []) ++ st.buffer a

theorem perm_flatMap_update {α : Type} (n a : Nat) (ha : a < n) (f g : Nat → List α)
    (hfg : ∀ b, b ≠ a → f b = g b) (x y : List α)
    (h : (x ++ f a).Perm (y ++ g a)) :
    (x ++ (List.range n).flatMap f).Perm (y ++ (List.range n).flatMap g) := by
  induction n with
  | zero => omega
  | succ n ih =>
    rw [List.range_succ, List.flatMap_append, List.flatMap_append]
    simp only [List.flatMap_cons, List.flatMap_nil, List.append_nil]
    by_cases han : a = n
    · subst han
      have hpre : (List.range a).flatMap f = (List.range a).flatMap g := by
        apply List.flatMap_congr
        intro b hb
        exact hfg b (by have := List.mem_range.1 hb; omega)
      rw [hpre, ← List.append_assoc, ← List.append_assoc]
      have e1 : (x ++ (List.range a).flatMap g ++ f a).Perm
          ((List.range a).flatMap g ++ (x ++ f a)) := by
        rw [← List.append_assoc]
        exact List.Perm.append_right _ List.perm_append_comm
      have e2 : (y ++ (List.range a).flatMap g ++ g a).Perm
          ((List.range a).flatMap g ++ (y ++ g a)) := by
        rw [← List.append_assoc]
        exact List.Perm.append_right _ List.perm_append_comm
      exact e1.trans ((h.append_left _).trans e2.symm)
    · rw [hfg n (fun h => han h.symm), ← List.append_assoc, ← List.append_assoc]
      exact (ih (by omega)).append_right _

/-- Conservation of samples. -/
theorem conservation {α : Type} {n : Nat} {st : CState α} (h : Reachable n st) :
    st.produced.Perm (st.booked ++ (List.range n).flatMap st.unbooked) := by
  induction h with
  | init =>
    have : (List.range n).flatMap (CState.init α).unbooked = [] := by
      rw [List.flatMap_eq_nil_iff]
      intro a _
      rfl
    rw [this]
    simp [CState.init]
  | @step st _ _ hs ih =>
    cases hs with
    | produce a batch ha =>
      have : (st.produced ++ batch).Perm
          ((st.booked ++ (List.range n).flatMap st.unbooked) ++ batch) := ih.append_right _
      refine this.trans ?_
      refine (List.perm_append_comm).trans ?_
      rw [← List.append_assoc]
      apply perm_flatMap_update n a ha
      · intro b hb
        simp [CState.unbooked, updAt, hb]
      · simp only [CState.unbooked, updAt, if_true]
        rw [List.append_assoc, ← List.append_assoc _ (st.buffer a) batch]
        refine (List.perm_append_comm).trans ?_
        rw [List.append_assoc]
    | fetch a ha hf =>
      refine ih.trans ?_
      apply perm_flatMap_update n a ha
      · intro b hb
        simp [CState.unbooked, updAt, hb]
      · simp [CState.unbooked, updAt, hf]
    | process a s ha hf =>
      refine ih.trans ?_
      apply perm_flatMap_update n a ha
      · intro b hb
        simp [CState.unbooked, updAt, hb]
      · simp [CState.unbooked, updAt, hf]
    | requeue a s ha hf =>
      refine ih.trans ?_
      apply perm_flatMap_update n a ha
      · intro b hb
        simp [CState.unbooked, updAt, hb]
      · simp [CState.unbooked, updAt, hf]

/-- **C20, collection loop.** Under every schedule, what the collector loop has booked is a
sub-multiset of what was produced (nothing is booked twice), and every produced sample is booked,
in an answered request, or in the buffer of its actor (nothing is lost by the loop). -/
theorem C20_loop_conservation {α : Type} {n : Nat} {st : CState α} (h : Reachable n st) :
    List.Subperm st.booked st.produced ∧
    ∀ x ∈ st.produced, x ∈ st.booked ∨ ∃ a, a < n ∧
      (x ∈ st.buffer a ∨ ∃ s, st.fut a = .answered s ∧ x ∈ s) := by
  have hc := conservation h
  refine ⟨(List.sublist_append_left _ _).subperm.trans hc.symm.subperm, ?_⟩
  intro x hx
  have := hc.mem_iff.1 hx
  rcases List.mem_append.1 this with h1 | h1
  · exact Or.inl h1
  · right
    obtain ⟨a, ha, hxa⟩ := List.mem_flatMap.1 h1
    refine ⟨a, List.mem_range.1 ha, ?_⟩
    unfold CState.unbooked at hxa
    rcases List.mem_append.1 hxa with h2 | h2
    · right
      cases hf : st.fut a with
      | answered s => rw [hf] at h2; exact ⟨s, rfl, h2⟩
      | requested => rw [hf] at h2; simp at h2
      | processed s => rw [hf] at h2; simp at h2
    · exact Or.inl h2

/-- **C20, quiescent shutdown.** If at the time of the final fetch no actor has samples left in
its buffer and the loop is not between booking and re-requesting, then every produced sample is
booked exactly once. -/
theorem C20_quiescent_partial {α : Type} {n : Nat} {st : CState α} (h : Reachable n st)
    (hbuf : ∀ a, a < n → st.buffer a = [])
    (hloop : ∀ a, a < n → ∃ s, st.fut a = .answered s) :
    (st.final n).Perm st.produced := by
  have hc := conservation h
  refine List.Perm.trans (List.Perm.of_eq ?_) hc.symm
  unfold CState.final
  congr 1
  apply List.flatMap_congr
  intro a ha
  have ha := List.mem_range.1 ha
  obtain ⟨s, hs⟩ := hloop a ha
  simp [CState.unbooked, hs, hbuf a ha]

/-- **C20 with C19.** In that case the scalar results equal the section means over all produced
samples. -/
theorem C20_quiescent_results_partial {n : Nat} {st : CState (Coord × Option ℝ × Bool)}
    (h : Reachable n st) (hbuf : ∀ a, a < n → st.buffer a = [])
    (hloop : ∀ a, a < n → ∃ s, st.fut a = .answered s)
    (accuracy confidence : ℝ) (m : Nat) (cdf : ℝ → ℝ) (r : ScalarResult)
    (hr : ScalarResult.init accuracy confidence m cdf = .ok r) (c : Coord) :
    (r.addAll (st.final n)).toArray c = mean (scalarsOf c st.produced) := by
  rw [C19_order_independent _ _ _ _ r hr _ _ (C20_quiescent_partial h hbuf hloop) c,
    C19_mean _ _ _ _ r hr]

/-- One actor, one finished batch that is fetched: hypotheses of the quiescent case. -/
def demoQuiet : CState Nat :=
  { buffer := updAt (updAt (fun _ => []) 0 [7, 8]) 0 []
    fut := updAt (fun _ => .requested) 0 (.answered [7, 8])
    booked := []
    produced := [7, 8] }

theorem demoQuiet_reachable : Reachable 1 demoQuiet :=
  ((Reachable.init).step (CStep.produce _ 0 [7, 8] (by omega))).step
    (CStep.fetch _ 0 (by omega) rfl)

example : Reachable 1 demoQuiet ∧ (∀ a, a < 1 → demoQuiet.buffer a = []) ∧
    (∀ a, a < 1 → ∃ s, demoQuiet.fut a = .answered s) := by
  refine ⟨demoQuiet_reachable, ?_, ?_⟩
  · intro a ha; rw [show a = 0 by omega]; rfl
  · intro a ha; rw [show a = 0 by omega]; exact ⟨_, rfl⟩

/-- **C20 fails: lost samples.** The request is answered before the actor finishes its batch (the
normal case, requests are answered at once); the final fetch then misses the batch although the
actor produced it. -/
theorem C20_in_flight_samples_lost_fails (batch : List Nat) (hb : batch ≠ []) :
    ∃ st : CState Nat, Reachable 1 st ∧ (∀ a, a < 1 → ∃ s, st.fut a = .answered s) ∧
      st.produced = batch ∧ st.final 1 = [] := by
  refine ⟨_, ((Reachable.init).step (CStep.fetch _ 0 (by omega) rfl)).step
    (CStep.produce _ 0 batch (by omega)), ?_, ?_, ?_⟩
  · intro a ha; rw [show a = 0 by omega]; exact ⟨_, rfl⟩
  · simp [CState.init]
  · simp [CState.final, CState.init, updAt]

/-- **C20 fails: double counting.** The final fetch runs after the loop booked a request but
before it replaced it: every sample of that request is booked twice. -/
theorem C20_double_counting_fails (batch : List Nat) (hb : batch ≠ []) :
    ∃ st : CState Nat, Reachable 1 st ∧ (∀ a, a < 1 → st.buffer a = []) ∧
      st.produced = batch ∧ st.final 1 = batch ++ batch := by
  refine ⟨_, (((Reachable.init).step (CStep.produce _ 0 batch (by omega))).step
    (CStep.fetch _ 0 (by omega) rfl)).step (CStep.process _ 0 batch (by omega) ?_), ?_, ?_, ?_⟩
  · simp [CState.init, updAt]
  · intro a ha; rw [show a = 0 by omega]; simp [CState.init, updAt]
  · simp [CState.init]
  · simp [CState.final, CState.init, updAt]

end Verif.Mc
