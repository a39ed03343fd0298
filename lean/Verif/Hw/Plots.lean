import Mathlib.Logic.Relation
import Mathlib.Data.List.Sort
import Mathlib.Tactic.Common

/-!
# Plot threads of hardware loops (C117)

Model of `PlotThread` and `ThreadContextManager` (`hermespy/hardware_loop/hardware_loop.py` 327-463) as a transition system over all
interleavings of the thread that plots and the thread that runs the loop (`hardware_loop/hardware_loop.py` 851-1006).  Samples are
numbered in the order of the updates.  Waiting on a condition may time out at any time (CPython: a waiter that timed out
does not see later notifications).  Plots may raise, which ends the thread.  Simplified: one plot thread; the plots of a
thread are updated in one step.
-/

namespace Verif.HwPlots

/-- Program counter of the plot thread, `hardware_loop/hardware_loop.py` 361-401: preparing the plots, entering the condition, checking
`__alive`, waiting (notified or not), re-acquiring the condition (after a notification or a timeout), entering the lock of
the sample, plotting, finished, ended by an exception. -/
inductive T
  | prepare
  | enter
  | check
  | waiting (notified : Bool)
  | back (notified : Bool)
  | want
  | plotting
  | done
  | dead
  deriving DecidableEq

/-- Program counter of the loop, `hardware_loop/hardware_loop.py` 403-418 and 449-463: between updates, setting the sample, entering the
condition, notifying, stopped the thread, joined the thread. -/
inductive M
  | idle
  | set
  | notify
  | notifying
  | stopped
  | joined
  deriving DecidableEq

/-- Owners of locks. -/
inductive Who
  | plotter
  | main
  deriving DecidableEq

/-- State: program counters, updates still to come, number of updates made, `__sample`, samples plotted so far, `__alive`, owners of
`__new_sample` and `__sample_lock`, and if the plot thread ever waited. -/
structure St where
  t : T
  m : M
  todo : ℕ
  made : ℕ
  sample : Option ℕ
  plotted : List (Option ℕ)
  alive : Bool
  cond : Option Who
  lock : Option Who
  waited : Bool

/-- Start of a run with a number of updates to come, `hardware_loop/hardware_loop.py` 337-359 and 442-447. -/
def init (updates : ℕ) : St := ⟨.prepare, .idle, updates, 0, none, [], true, none, none, false⟩

/-- Effect of `notify` on the plot thread: only threads that are waiting see it. -/
def notified : T → T
  | .waiting _ => .waiting true
  | t => t

/-- Steps of both threads. -/
inductive Step : St → St → Prop
  /-- `update_plot`: `with self.__sample_lock`, line 411. -/
  | lock (s) (hm : s.m = .idle) (ht : 0 < s.todo) (hl : s.lock = none) :
    Step s { s with m := .set, lock := some .main }
  /-- `self.__sample = sample`, line 412. -/
  | assign (s) (hm : s.m = .set) :
    Step s { s with m := .notify, lock := none, sample := some s.made, made := s.made + 1, todo := s.todo - 1 }
  /-- `with self.__new_sample`, line 414. -/
  | acquire (s) (hm : s.m = .notify) (hc : s.cond = none) : Step s { s with m := .notifying, cond := some .main }
  /-- `notify()` and leaving the condition, line 415. -/
  | notify (s) (hm : s.m = .notifying) : Step s { s with m := .idle, cond := none, t := notified s.t }
  /-- `stop`, after all updates, lines 417-418. -/
  | stop (s) (hm : s.m = .idle) (ht : s.todo = 0) : Step s { s with m := .stopped, alive := false }
  /-- `join`, line 461. -/
  | join (s) (hm : s.m = .stopped) (ht : s.t = .done ∨ s.t = .dead) : Step s { s with m := .joined }
  /-- Plots are prepared, lines 384-385. -/
  | prepare (s) (ht : s.t = .prepare) : Step s { s with t := .enter }
  /-- Preparing a plot raises. -/
  | prepareRaises (s) (ht : s.t = .prepare) : Step s { s with t := .dead }
  /-- `stack.enter_context(self.__new_sample)`, line 387. -/
  | enter (s) (ht : s.t = .enter) (hc : s.cond = none) : Step s { s with t := .check, cond := some .plotter }
  /-- `while self.__alive`, line 389, and start of `wait(1.0)`, line 390, which releases the condition. -/
  | wait (s) (ht : s.t = .check) (ha : s.alive = true) : Step s { s with t := .waiting false, cond := none, waited := true }
  /-- `while self.__alive` fails, line 389; the condition is left. -/
  | leave (s) (ht : s.t = .check) (ha : s.alive = false) : Step s { s with t := .done, cond := none }
  /-- The notification arrives or the wait times out. -/
  | wake (s) (n) (ht : s.t = .waiting n) : Step s { s with t := .back n }
  /-- `wait` returns, line 390, after a notification or with a thread to be stopped. -/
  | proceed (s) (n) (ht : s.t = .back n) (hc : s.cond = none) (hn : n = true ∨ s.alive = false) :
    Step s { s with t := .want, cond := some .plotter }
  /-- `wait` timed out and the thread is alive: waits again, lines 390-391. -/
  | again (s) (ht : s.t = .back false) (hc : s.cond = none) (ha : s.alive = true) : Step s { s with t := .waiting false }
  /-- `with self.__sample_lock`, line 393. -/
  | lockSample (s) (ht : s.t = .want) (hl : s.lock = none) : Step s { s with t := .plotting, lock := some .plotter }
  /-- `plot.update_plot(self.__sample)`, lines 394-395. -/
  | plot (s) (ht : s.t = .plotting) : Step s { s with t := .check, lock := none, plotted := s.plotted ++ [s.sample] }
  /-- Updating a plot raises; all contexts are left. -/
  | plotRaises (s) (ht : s.t = .plotting) : Step s { s with t := .dead, lock := none, cond := none }

/-- States that can be reached in a run of a number of updates. -/
def Reachable (updates : ℕ) (s : St) : Prop := Relation.ReflTransGen Step (init updates) s

/-- Where the plot thread holds the condition. -/
def T.holds : T → Bool
  | .check | .want | .plotting => true
  | _ => false

/-- Position of a sample in the order of updates; `None` precedes all samples. -/
def rank : Option ℕ → ℕ
  | none => 0
  | some k => k + 1

/-- Invariant of all reachable states. -/
structure Inv (updates : ℕ) (s : St) : Prop where
  cond : s.cond = if s.m = .notifying then some .main else if s.t.holds then some .plotter else none
  excl : ¬ (s.m = .notifying ∧ s.t.holds = true)
  lock : s.lock = if s.m = .set then some .main else if s.t = .plotting then some .plotter else none
  excl' : ¬ (s.m = .set ∧ s.t = .plotting)
  alive : s.alive = false ↔ s.m = .stopped ∨ s.m = .joined
  todo : s.m = .stopped ∨ s.m = .joined → s.todo = 0
  setting : s.m = .set → 0 < s.todo
  count : s.made + s.todo = updates
  ended : s.m = .joined → s.t = .done ∨ s.t = .dead
  sample : s.sample = if s.made = 0 then none else some (s.made - 1)
  fresh : s.t = .check ∨ s.t = .done → s.plotted = [] ∨ s.plotted.getLast? = some s.sample ∨ s.m = .notify
  done : s.t = .done → s.alive = false
  waited : s.waited = true → s.t = .check ∨ s.t = .done → s.plotted ≠ []
  never : s.waited = false → s.plotted = [] ∧ (s.t = .prepare ∨ s.t = .enter ∨ s.t = .check ∨ s.t = .done ∨ s.t = .dead)
  bound : ∀ r ∈ s.plotted, rank r ≤ s.made
  order : s.plotted.Pairwise fun a b => rank a ≤ rank b
  told : s.t = .waiting true ∨ s.t = .back true → 0 < s.made
  must : s.t = .want ∨ s.t = .plotting → 0 < s.made ∨ s.alive = false
  nones : none ∈ s.plotted → updates = 0
  first : s.t = .prepare ∨ s.t = .enter → s.waited = false
  some : s.m = .notify ∨ s.m = .notifying → 0 < s.made

theorem inv_init (updates : ℕ) : Inv updates (init updates) := by
  constructor <;> simp [init, T.holds]

theorem rank_sample {updates : ℕ} {s : St} (h : Inv updates s) : rank s.sample = s.made := by
  rw [h.sample]
  split <;> simp only [rank] <;> omega

theorem inv_plot {updates : ℕ} {s : St} (h : Inv updates s) (ht : s.t = .plotting) :
    Inv updates { s with t := .check, lock := none, plotted := s.plotted ++ [s.sample] } := by
  have hr := rank_sample h
  obtain ⟨a1, a2, a3, a4, a5, a6, a7, a8, a9, a10, a11, a12, a13, a14, a15, a16, a17, a18, a19, a20, a21⟩ := h
  constructor
  case order =>
    simp only
    rw [List.pairwise_append]
    refine ⟨a16, List.pairwise_singleton _ _, fun x hx y hy => ?_⟩
    rw [List.mem_singleton.mp hy, hr]
    exact a15 x hx
  case waited => intro _ _; simp
  case fresh => intro _; simp
  all_goals grind [T.holds]

theorem inv_plotRaises {updates : ℕ} {s : St} (h : Inv updates s) (ht : s.t = .plotting) :
    Inv updates { s with t := .dead, lock := none, cond := none } := by
  obtain ⟨a1, a2, a3, a4, a5, a6, a7, a8, a9, a10, a11, a12, a13, a14, a15, a16, a17, a18, a19, a20, a21⟩ := h
  constructor <;> grind [T.holds]

theorem inv_step {updates : ℕ} {s s' : St} (h : Inv updates s) (hs : Step s s') : Inv updates s' := by
  have hr := rank_sample h
  obtain ⟨a1, a2, a3, a4, a5, a6, a7, a8, a9, a10, a11, a12, a13, a14, a15, a16, a17, a18, a19, a20, a21⟩ := h
  cases hs with
  | lock hm ht hl => constructor <;> grind [T.holds]
  | assign hm => constructor <;> grind [T.holds]
  | acquire hm hc => constructor <;> grind [T.holds]
  | notify hm => cases ht : s.t <;> constructor <;> grind [T.holds, notified]
  | stop hm ht => constructor <;> grind [T.holds]
  | join hm ht => constructor <;> grind [T.holds]
  | prepare ht => constructor <;> grind [T.holds]
  | prepareRaises ht => constructor <;> grind [T.holds]
  | enter ht hc => constructor <;> grind [T.holds]
  | wait ht ha => constructor <;> grind [T.holds]
  | leave ht ha => constructor <;> grind [T.holds]
  | wake n ht => constructor <;> grind [T.holds]
  | proceed n ht hc hn => constructor <;> grind [T.holds]
  | again ht hc ha => constructor <;> grind [T.holds]
  | lockSample ht hl => constructor <;> grind [T.holds]
  | plot ht => exact inv_plot ⟨a1, a2, a3, a4, a5, a6, a7, a8, a9, a10, a11, a12, a13, a14, a15, a16, a17, a18, a19, a20, a21⟩ ht
  | plotRaises ht =>
    exact inv_plotRaises ⟨a1, a2, a3, a4, a5, a6, a7, a8, a9, a10, a11, a12, a13, a14, a15, a16, a17, a18, a19, a20, a21⟩ ht

theorem inv {updates : ℕ} {s : St} (h : Reachable updates s) : Inv updates s := by
  induction h with
  | refl => exact inv_init updates
  | tail _ hs ih => exact inv_step ih hs

/-- The run is over: the loop has joined the plot thread. -/
def Final (s : St) : Prop := s.m = .joined

/-- Distance of the loop from its end. -/
def M.rank : M → ℕ
  | .idle => 2
  | .set => 1
  | .notify => 4
  | .notifying => 3
  | .stopped => 1
  | .joined => 0

/-- Distance of the plot thread from releasing the condition, or from its end if it has been stopped. -/
def T.rank (alive : Bool) : T → ℕ
  | .prepare => if alive then 0 else 9
  | .enter => if alive then 0 else 8
  | .waiting _ => if alive then 0 else 7
  | .back _ => if alive then 0 else 6
  | .want => 5
  | .plotting => 4
  | .check => 3
  | .done => 0
  | .dead => 0

/-- Distance of a state from the end of the run. -/
def distance (s : St) : ℕ := 10 * (4 * s.todo + s.m.rank) + s.t.rank s.alive

theorem rank_lt (a : Bool) (t : T) : t.rank a < 10 := by cases t <;> simp only [T.rank] <;> (try split) <;> omega

/-- From every state that is not final, some step leads closer to the end. -/
theorem progress {updates : ℕ} {s : St} (h : Inv updates s) (hf : ¬ Final s) : ∃ s', Step s s' ∧ distance s' < distance s := by
  have hr := fun a t => rank_lt a t
  have close : ∀ s' : St, 4 * s'.todo + s'.m.rank < 4 * s.todo + s.m.rank → distance s' < distance s := by
    intro s' hlt
    have := hr s'.alive s'.t
    unfold distance
    omega
  have hplot : s.t = .plotting → ∃ s', Step s s' ∧ distance s' < distance s := fun ht =>
    ⟨_, .plot s ht, by simp [distance, ht, T.rank]⟩
  have hcheck : s.alive = true → s.t = .check → ∃ s', Step s s' ∧ distance s' < distance s := fun ha ht =>
    ⟨_, .wait s ht ha, by simp [distance, ht, T.rank, ha]⟩
  have hwant : s.m ≠ .set → s.t = .want → ∃ s', Step s s' ∧ distance s' < distance s := fun hm ht =>
    ⟨_, .lockSample s ht (by rw [h.lock, if_neg hm, ht]; simp), by simp [distance, ht, T.rank]⟩
  cases hm : s.m with
  | idle =>
    rcases Nat.eq_zero_or_pos s.todo with h0 | h0
    · exact ⟨_, .stop s hm h0, close _ (by simp [hm, M.rank])⟩
    · by_cases hp : s.t = .plotting
      · exact hplot hp
      · have hl : s.lock = none := by rw [h.lock, hm]; simp [hp]
        exact ⟨_, .lock s hm h0 hl, close _ (by simp [hm, M.rank])⟩
  | set => exact ⟨_, .assign s hm, close _ (by have := h.setting hm; simp only [hm, M.rank]; omega)⟩
  | notify =>
    by_cases hh : s.t.holds = true
    · have ha : s.alive = true := by
        by_contra hc
        have := h.alive.mp (by simpa using hc)
        simp [hm] at this
      cases ht : s.t with
      | check => exact hcheck ha ht
      | want => exact hwant (by simp [hm]) ht
      | plotting => exact hplot ht
      | _ => simp [ht, T.holds] at hh
    · exact ⟨_, .acquire s hm (by rw [h.cond, hm]; simp [hh]), close _ (by simp [hm, M.rank])⟩
  | notifying => exact ⟨_, .notify s hm, close _ (by simp [hm, M.rank])⟩
  | stopped =>
    have ha : s.alive = false := h.alive.mpr (.inl hm)
    have hc : s.t.holds = false → s.cond = none := by
      intro hh
      rw [h.cond, hm]
      simp [hh]
    cases ht : s.t with
    | prepare => exact ⟨_, .prepare s ht, by simp [distance, ht, T.rank, ha]⟩
    | enter => exact ⟨_, .enter s ht (hc (by rw [ht]; rfl)), by simp [distance, ht, T.rank, ha]⟩
    | check => exact ⟨_, .leave s ht ha, by simp [distance, ht, T.rank]⟩
    | waiting n => exact ⟨_, .wake s n ht, by simp [distance, ht, T.rank, ha]⟩
    | back n => exact ⟨_, .proceed s n ht (hc (by rw [ht]; rfl)) (.inr ha), by simp [distance, ht, T.rank, ha]⟩
    | want => exact hwant (by simp [hm]) ht
    | plotting => exact hplot ht
    | done => exact ⟨_, .join s hm (.inl ht), close _ (by simp [hm, M.rank])⟩
    | dead => exact ⟨_, .join s hm (.inr ht), close _ (by simp [hm, M.rank])⟩
  | joined => exact absurd hm hf

theorem reach_final {updates : ℕ} : ∀ (n : ℕ) (s : St), distance s ≤ n → Inv updates s → ∃ s', Relation.ReflTransGen Step s s' ∧ Final s' := by
  intro n
  induction n with
  | zero =>
    intro s hn h
    by_cases hf : Final s
    · exact ⟨s, .refl, hf⟩
    · obtain ⟨s', _, hlt⟩ := progress h hf
      omega
  | succ n ih =>
    intro s hn h
    by_cases hf : Final s
    · exact ⟨s, .refl, hf⟩
    · obtain ⟨s', hs, hlt⟩ := progress h hf
      obtain ⟨f, hf1, hf2⟩ := ih s' (by omega) (inv_step h hs)
      exact ⟨f, .head hs hf1, hf2⟩

/-! ### Theorems -/

/-- **No deadlocks.**  Under every interleaving, with timeouts and exceptions of plots at any time, no reachable state is stuck: the
run can always still be finished, and a finished run has made all updates and ended the plot thread, which holds no
lock. -/
theorem C117_deadlock (updates : ℕ) (s : St) (h : Reachable updates s) :
    (∃ s', Relation.ReflTransGen Step s s' ∧ s'.m = .joined) ∧
      (s.m = .joined → s.made = updates ∧ (s.t = .done ∨ s.t = .dead) ∧ s.cond = none ∧ s.lock = none) := by
  have hi := inv h
  refine ⟨reach_final _ s (le_refl _) hi, fun hj => ?_⟩
  have ht := hi.ended hj
  refine ⟨by have := hi.count; have := hi.todo (.inr hj); omega, ht, ?_, ?_⟩
  · rw [hi.cond, hj]
    rcases ht with e | e <;> simp [e, T.holds]
  · rw [hi.lock, hj]
    rcases ht with e | e <;> simp [e]

/-- **Samples are not written while they are plotted**: while plots are updated the loop is not within the assignment of the sample,
and no notification is sent between the return of `wait` and the next wait. -/
theorem C117_exclusive (updates : ℕ) (s : St) (h : Reachable updates s) :
    (s.t = .plotting → s.m ≠ .set) ∧ (s.t = .check ∨ s.t = .want ∨ s.t = .plotting → s.m ≠ .notifying) := by
  have hi := inv h
  refine ⟨fun ht hm => hi.excl' ⟨hm, ht⟩, fun ht hm => hi.excl ⟨hm, ?_⟩⟩
  rcases ht with e | e | e <;> rw [e] <;> rfl

/-- **Plots never go back**: samples are plotted in the order of the updates, and only samples that have been handed over. -/
theorem C117_order (updates : ℕ) (s : St) (h : Reachable updates s) :
    (∀ (i j k l : ℕ), i < j → s.plotted[i]? = some (some k) → s.plotted[j]? = some (some l) → k ≤ l) ∧
      (∀ k, some k ∈ s.plotted → k < s.made) ∧ s.made ≤ updates := by
  have hi := inv h
  refine ⟨?_, ?_, by have := hi.count; omega⟩
  · intro i j k l hij h1 h2
    obtain ⟨g1, e1⟩ := List.getElem?_eq_some_iff.mp h1
    obtain ⟨g2, e2⟩ := List.getElem?_eq_some_iff.mp h2
    have := List.pairwise_iff_getElem.mp hi.order i j g1 g2 hij
    rw [e1, e2] at this
    simp only [rank] at this
    omega
  · intro k hk
    have := hi.bound _ hk
    simp only [rank] at this
    omega

/-- **The last sample is shown.**  When a run of at least one update is over and no plot raised, the last plot was that of the last
sample - provided the thread had prepared its plots and started to wait before it was stopped. -/
theorem C117_last_partial (updates : ℕ) (s : St) (h : Reachable updates s) (hu : 0 < updates) (hj : s.m = .joined)
    (ht : s.t = .done) (hw : s.waited = true) :
    s.plotted.getLast? = some (some (updates - 1)) ∧ none ∉ s.plotted := by
  have hi := inv h
  have hc : s.made = updates := by have := hi.count; have := hi.todo (.inr hj); omega
  refine ⟨?_, fun hn => by have := hi.nones hn; omega⟩
  rcases hi.fresh (.inr ht) with e | e | e
  · exact absurd e (hi.waited hw (.inr ht))
  · rw [e, hi.sample, if_neg (by omega), hc]
  · rw [hj] at e; simp at e

/-- States along a run of the loop while the plot thread prepares its plots. -/
theorem updates_unseen (t : T) (ht : notified t = t) (k : ℕ) : ∀ (m : ℕ) (s : Option ℕ), ∃ s',
    Relation.ReflTransGen Step ⟨t, .idle, k, m, s, [], true, none, none, false⟩
      ⟨t, .idle, 0, m + k, s', [], true, none, none, false⟩ := by
  induction k with
  | zero => intro m s; exact ⟨s, .refl⟩
  | succ k ih =>
    intro m s
    obtain ⟨s', h⟩ := ih (m + 1) (some m)
    refine ⟨s', ?_⟩
    rw [show m + (k + 1) = m + 1 + k by omega]
    refine .head (Step.lock _ rfl (Nat.succ_pos k) rfl) (.head (Step.assign _ rfl) (.head (Step.acquire _ rfl rfl) (.head (Step.notify _ rfl) ?_)))
    simpa [ht] using h

/-- **Slow threads show nothing.**  However many updates are made, there are runs, without any exception, in which nothing is ever
plotted: the thread has not finished preparing its plots when it is stopped. -/
theorem C117_last_fails (updates : ℕ) :
    ∃ s, Reachable updates s ∧ s.m = .joined ∧ s.t = .done ∧ s.made = updates ∧ s.plotted = [] := by
  obtain ⟨x, h⟩ := updates_unseen .prepare rfl updates 0 none
  rw [Nat.zero_add] at h
  refine ⟨⟨.done, .joined, 0, updates, x, [], false, none, none, false⟩, ?_, rfl, rfl, rfl, rfl⟩
  refine Relation.ReflTransGen.trans h ?_
  exact .head (Step.stop _ rfl rfl) (.head (Step.prepare _ rfl) (.head (Step.enter _ rfl rfl) (.head (Step.leave _ rfl rfl)
    (.head (Step.join _ rfl (.inl rfl)) .refl))))

/-- **Without samples `None` is plotted.**  In a run without updates - all drops raise - a thread that waits when it is stopped updates its
plots with `None`; in runs with updates that never happens. -/
theorem C117_none_fails :
    (∃ s, Reachable 0 s ∧ s.m = .joined ∧ s.plotted = [none]) ∧
      ∀ updates s, 0 < updates → Reachable updates s → none ∉ s.plotted := by
  constructor
  · refine ⟨⟨.done, .joined, 0, 0, none, [none], false, none, none, true⟩, ?_, rfl, rfl⟩
    exact .head (Step.prepare _ rfl) (.head (Step.enter _ rfl rfl) (.head (Step.wait _ rfl rfl) (.head (Step.stop _ rfl rfl)
      (.head (Step.wake _ false rfl) (.head (Step.proceed _ false rfl rfl (.inr rfl)) (.head (Step.lockSample _ rfl rfl)
        (.head (Step.plot _ rfl) (.head (Step.leave _ rfl rfl) (.head (Step.join _ rfl (.inl rfl)) .refl)))))))))
  · intro updates s hu h hn
    have := (inv h).nones hn
    omega

/-- A run of two updates in which the notification of the second is missed, but its sample is shown nevertheless; it meets the
hypotheses of `C117_last_partial`. -/
example : Reachable 2 ⟨.done, .joined, 0, 2, some 1, [some 0, some 1], false, none, none, true⟩ :=
  .head (Step.prepare _ rfl) (.head (Step.enter _ rfl rfl) (.head (Step.wait _ rfl rfl)
    (.head (Step.lock _ rfl (by decide) rfl) (.head (Step.assign _ rfl) (.head (Step.acquire _ rfl rfl) (.head (Step.notify _ rfl)
    (.head (Step.wake _ true rfl) (.head (Step.proceed _ true rfl rfl (.inl rfl)) (.head (Step.lockSample _ rfl rfl)
    (.head (Step.plot _ rfl) (.head (Step.wait _ rfl rfl) (.head (Step.wake _ false rfl)
    (.head (Step.lock _ rfl (by decide) rfl) (.head (Step.assign _ rfl) (.head (Step.acquire _ rfl rfl) (.head (Step.notify _ rfl)
    (.head (Step.again _ rfl rfl rfl) (.head (Step.stop _ rfl rfl) (.head (Step.wake _ false rfl)
    (.head (Step.proceed _ false rfl rfl (.inr rfl)) (.head (Step.lockSample _ rfl rfl) (.head (Step.plot _ rfl)
    (.head (Step.leave _ rfl rfl) (.head (Step.join _ rfl (.inl rfl)) .refl))))))))))))))))))))))))

end Verif.HwPlots
