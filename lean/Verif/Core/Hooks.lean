import Verif.Np
import Mathlib.Data.List.Basic
import Mathlib.Data.List.Nodup
import Mathlib.Data.List.Perm.Basic
import Mathlib.Data.List.Induction
import Mathlib.Tactic.Common

/-!
# C40: hooks

`core/hooks.py`.  Hooks are objects identified by numbers; the hooks of a hookable are a `set`, whose
iteration order is given by the objects' addresses and so arbitrary.
-/

namespace Verif.Core

/-- Calls on a hookable: `add_hook` (or `add_callback`, which creates the hook) and `remove_hook` (or
`Hook.remove`), `core/hooks.py` 53-104. -/
inductive HookOp
  | add (h : Nat)
  | remove (h : Nat)

/-- The set `__hooks` after a call; the list has no duplicates and its order means nothing. -/
def HookOp.run (hooks : List Nat) : HookOp → List Nat
  | .add h => if h ∈ hooks then hooks else hooks ++ [h]
  | .remove h => hooks.erase h

/-- What a callback does to the hookable while it is called. -/
abbrev Effect := Nat → List HookOp

/-- The loop of `notify`, `core/hooks.py` 106-116: `order` are the hooks still to be visited.  CPython
raises if the size of the set has changed since the loop began, at every step including the last.
Returns the hooks called and the error, if any. -/
def notifyLoop (eff : Effect) (size : Nat) : List Nat → List Nat → List Nat × Option PyErr × List Nat
  | hooks, [] => ([], if hooks.length = size then none else some .runtime, hooks)
  | hooks, h :: order =>
    if hooks.length ≠ size then ([], some .runtime, hooks)
    else
      let r := notifyLoop eff size ((eff h).foldl HookOp.run hooks) order
      (h :: r.1, r.2)

/-- `notify` visiting the hooks in the order `order`. -/
def notify (eff : Effect) (hooks order : List Nat) : List Nat × Option PyErr × List Nat :=
  notifyLoop eff hooks.length hooks order

/-- The hooks of a new hookable after a history. -/
def hooksAfter (ops : List HookOp) : List Nat := ops.foldl HookOp.run []

/-- The call concerns the hook. -/
def HookOp.about (h : Nat) : HookOp → Bool
  | .add k => k == h
  | .remove k => k == h

/-- A hook is registered if the last call concerning it added it. -/
def Registered (ops : List HookOp) (h : Nat) : Prop :=
  (ops.filter (HookOp.about h)).getLast? = some (.add h)

theorem run_nodup (hooks : List Nat) (hn : hooks.Nodup) (op : HookOp) : (op.run hooks).Nodup := by
  cases op with
  | add h =>
    simp only [HookOp.run]
    split
    · exact hn
    · rename_i hm
      rw [List.nodup_append]
      refine ⟨hn, by simp, ?_⟩
      intro x hx y hy
      simp only [List.mem_singleton] at hy
      subst hy
      rintro rfl
      exact hm hx
  | remove h => exact hn.erase _

theorem foldl_nodup (ops : List HookOp) (hooks : List Nat) (hn : hooks.Nodup) :
    (ops.foldl HookOp.run hooks).Nodup := by
  induction ops generalizing hooks with
  | nil => exact hn
  | cons op ops ih => exact ih _ (run_nodup hooks hn op)

/-- The set after a history holds exactly the registered hooks, each once. -/
theorem hooksAfter_spec (ops : List HookOp) :
    (hooksAfter ops).Nodup ∧ ∀ h, h ∈ hooksAfter ops ↔ Registered ops h := by
  refine ⟨foldl_nodup ops [] List.nodup_nil, ?_⟩
  intro h
  induction ops using List.reverseRecOn with
  | nil => simp [hooksAfter, Registered]
  | append_singleton ops op ih =>
    have hnd : (hooksAfter ops).Nodup := foldl_nodup ops [] List.nodup_nil
    have e : hooksAfter (ops ++ [op]) = op.run (hooksAfter ops) := by
      simp [hooksAfter, List.foldl_append]
    rw [e]
    unfold Registered at ih ⊢
    rw [List.filter_append]
    cases op with
    | add k =>
      by_cases hk : k = h
      · subst hk
        simp only [HookOp.run]
        constructor
        · intro _; simp [HookOp.about]
        · intro _
          split
          · assumption
          · simp
      · have : ([HookOp.add k].filter (HookOp.about h)) = [] := by simp [HookOp.about, hk]
        rw [this, List.append_nil, ← ih]
        simp only [HookOp.run]
        split
        · exact Iff.rfl
        · simp [Ne.symm hk]
    | remove k =>
      by_cases hk : k = h
      · subst hk
        simp only [HookOp.run]
        constructor
        · intro hm
          rw [hnd.mem_erase_iff] at hm
          exact absurd rfl hm.1
        · intro hm
          simp [HookOp.about] at hm
      · have : ([HookOp.remove k].filter (HookOp.about h)) = [] := by simp [HookOp.about, hk]
        rw [this, List.append_nil, ← ih]
        simp only [HookOp.run]
        rw [hnd.mem_erase_iff]
        simp [Ne.symm hk]

/-- **C40** (calls): after any history, `notify` calls exactly the registered hooks, each once, in some
order, and raises nothing, provided the callbacks do not add or remove hooks themselves.  Missing for
the full claim: the order, and callbacks changing the hooks, see below. -/
theorem C40_notify_partial (ops : List HookOp) (eff : Effect) (order : List Nat)
    (horder : order.Perm (hooksAfter ops)) (heff : ∀ h, eff h = []) :
    (notify eff (hooksAfter ops) order).1 = order ∧
    (notify eff (hooksAfter ops) order).2.1 = none ∧
    (notify eff (hooksAfter ops) order).1.Nodup ∧
    ∀ h, h ∈ (notify eff (hooksAfter ops) order).1 ↔ Registered ops h := by
  have key : ∀ (hooks order : List Nat), notifyLoop eff hooks.length hooks order = (order, none, hooks) := by
    intro hooks order
    induction order with
    | nil => simp [notifyLoop]
    | cons h order ih =>
      rw [notifyLoop, if_neg (by simp), heff h]
      simp only [List.foldl_nil, ih]
  have e : notify eff (hooksAfter ops) order = (order, none, hooksAfter ops) := key _ _
  rw [e]
  obtain ⟨h1, h2⟩ := hooksAfter_spec ops
  refine ⟨rfl, rfl, horder.symm.nodup h1, ?_⟩
  intro h
  rw [← h2 h]
  exact horder.mem_iff

/-- **C40** (removal): a hook removed and not added again is not called. -/
theorem C40_removed (pre post : List HookOp) (h : Nat) (hpost : ∀ op ∈ post, op ≠ .add h) (eff : Effect)
    (order : List Nat) (horder : order.Perm (hooksAfter (pre ++ .remove h :: post))) :
    h ∉ (notify eff (hooksAfter (pre ++ .remove h :: post)) order).1 := by
  have hreg : ¬ Registered (pre ++ .remove h :: post) h := by
    unfold Registered
    rw [List.filter_append, List.filter_cons]
    have : HookOp.about h (.remove h) = true := by simp [HookOp.about]
    rw [if_pos this]
    intro hl
    have hmem := List.mem_of_getLast? hl
    rw [List.getLast?_append] at hl
    have hne : (HookOp.remove h :: post.filter (HookOp.about h)).getLast? ≠ none := by simp
    cases hx : (HookOp.remove h :: post.filter (HookOp.about h)).getLast? with
    | none => exact hne hx
    | some y =>
      rw [hx] at hl
      simp only [Option.some_or, Option.some.injEq] at hl
      subst hl
      have := List.mem_of_getLast? hx
      rcases List.mem_cons.mp this with e | hm
      · cases e
      · exact hpost _ (List.mem_of_mem_filter hm) rfl
  have hnot : h ∉ order := fun hm => hreg ((hooksAfter_spec _).2 h |>.mp (horder.mem_iff.mp hm))
  have sub : ∀ (size : Nat) (order hooks : List Nat), ∀ x ∈ (notifyLoop eff size hooks order).1, x ∈ order := by
    intro size order
    induction order with
    | nil => intro hooks x hx; simp [notifyLoop] at hx
    | cons k order ih =>
      intro hooks x hx
      rw [notifyLoop] at hx
      split at hx
      · simp at hx
      · rcases List.mem_cons.mp hx with rfl | hx
        · exact List.mem_cons_self
        · exact List.mem_cons_of_mem _ (ih _ x hx)
  exact fun hc => hnot (sub _ _ _ h hc)

/-- **C40** fails in the order: the set may be iterated in the reverse order of registration. -/
theorem C40_order_fails : [2, 1].Perm (hooksAfter [.add 1, .add 2]) ∧
    (notify (fun _ => []) (hooksAfter [.add 1, .add 2]) [2, 1]).1 = [2, 1] := by
  refine ⟨?_, rfl⟩
  exact List.Perm.swap 1 2 []

/-- **C40** fails for callbacks which remove themselves when called, as the documentation of
`add_callback` asks for once they are no longer required: whatever the other hooks and the order,
`notify` raises, and no hook after the first self-removing one is called. -/
theorem C40_self_removal_fails (hooks pre post : List Nat) (h : Nat) (hn : hooks.Nodup)
    (horder : (pre ++ h :: post).Perm hooks) (eff : Effect) (hpre : ∀ k ∈ pre, eff k = [])
    (hself : eff h = [.remove h]) :
    (notify eff hooks (pre ++ h :: post)).1 = pre ++ [h] ∧
    (notify eff hooks (pre ++ h :: post)).2.1 = some .runtime := by
  have hm : h ∈ hooks := horder.mem_iff.mp (by simp)
  have hpos : 0 < hooks.length := List.length_pos_of_mem hm
  have last : ∀ post : List Nat, notifyLoop eff hooks.length hooks (h :: post) =
      ([h], some .runtime, hooks.erase h) := by
    intro post
    have hl : (hooks.erase h).length ≠ hooks.length := by
      rw [List.length_erase_of_mem hm]; omega
    rw [notifyLoop, if_neg (by simp), hself]
    simp only [List.foldl_cons, List.foldl_nil, HookOp.run]
    cases post with
    | nil => rw [notifyLoop, if_neg hl]
    | cons k post => rw [notifyLoop, if_pos hl]
  have key : ∀ pre : List Nat, (∀ k ∈ pre, eff k = []) →
      notifyLoop eff hooks.length hooks (pre ++ h :: post) = (pre ++ [h], some .runtime, hooks.erase h) := by
    intro pre
    induction pre with
    | nil => intro _; exact last post
    | cons k pre ih =>
      intro hp
      rw [List.cons_append, notifyLoop, if_neg (by simp), hp k List.mem_cons_self]
      simp only [List.foldl_nil, ih (fun x hx => hp x (List.mem_cons_of_mem _ hx)), List.cons_append]
  unfold notify
  rw [key pre hpre]
  exact ⟨rfl, rfl⟩

example : hooksAfter [.add 1, .add 2, .add 1, .remove 2, .add 3, .remove 9] = [1, 3] := by rfl
example : notify (fun h => if h = 1 then [.remove 1] else []) [4, 1, 3] [4, 1, 3] =
    ([4, 1], some .runtime, [4, 3]) := by rfl

end Verif.Core
