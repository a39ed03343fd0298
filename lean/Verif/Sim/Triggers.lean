import Verif.Np
import Mathlib.Data.List.Basic
import Mathlib.Data.List.Nodup
import Mathlib.Tactic.Common

/-!
# C38: realization of shared trigger models

`simulation/scenario.py` 397-433.
-/

namespace Verif.Sim

/-- State of the loop in `realize_triggers`: `triggers` (in the order of their realization, so also the
list of all calls of `realize`), `unique_realizations` and `device_realizations`.  A realization is
identified by the number of the `realize` call that created it. -/
structure Trig where
  triggers : List Nat
  unique : List Nat
  device : List Nat

/-- Body of the loop, `simulation/scenario.py` 418-431.  `triggers.index` cannot fail after the test. -/
def trigStep (s : Trig) (t : Nat) : Trig :=
  if t ∉ s.triggers then
    ⟨s.triggers ++ [t], s.unique ++ [s.triggers.length], s.device ++ [s.triggers.length]⟩
  else
    { s with device := s.device ++ [s.unique.getD (s.triggers.idxOf t) 0] }

/-- `realize_triggers` for the devices' trigger models. -/
def realizeTriggers (models : List Nat) : Trig := models.foldl trigStep ⟨[], [], []⟩

/-- Invariant of the loop after the devices with the models `done`. -/
structure TrigInv (s : Trig) (done : List Nat) : Prop where
  unique : s.unique = List.range s.triggers.length
  nodup : s.triggers.Nodup
  mem : ∀ m, m ∈ s.triggers ↔ m ∈ done
  len : s.device.length = done.length
  own : ∀ (i m : Nat), done[i]? = some m → ∃ k : Nat, s.device[i]? = some k ∧ s.triggers[k]? = some m

theorem trigStep_inv {s : Trig} {done : List Nat} (h : TrigInv s done) (t : Nat) :
    TrigInv (trigStep s t) (done ++ [t]) := by
  unfold trigStep
  split
  · rename_i ht
    refine ⟨?_, ?_, ?_, ?_, ?_⟩
    · simp [h.unique, List.range_succ]
    · simp only [List.nodup_append]
      refine ⟨h.nodup, by simp, ?_⟩
      intro x hx y hy
      simp only [List.mem_singleton] at hy
      subst hy
      rintro rfl
      exact ht hx
    · intro m; simp [h.mem m]
    · simp [h.len]
    · intro i m hi
      by_cases hlt : i < done.length
      · rw [List.getElem?_append_left hlt] at hi
        obtain ⟨k, h1, h2⟩ := h.own i m hi
        have hk : k < s.triggers.length := by
          by_contra hc
          rw [List.getElem?_eq_none (by omega)] at h2; cases h2
        refine ⟨k, ?_, ?_⟩
        · dsimp only; rw [List.getElem?_append_left (by rw [h.len]; exact hlt)]; exact h1
        · dsimp only; rw [List.getElem?_append_left hk]; exact h2
      · rw [List.getElem?_append_right (by omega)] at hi
        have hz : i - done.length = 0 := by
          by_contra hc
          rw [List.getElem?_eq_none (by simp; omega)] at hi; cases hi
        rw [hz] at hi
        simp only [List.getElem?_cons_zero, Option.some.injEq] at hi
        subst hi
        refine ⟨s.triggers.length, ?_, by simp⟩
        dsimp only
        rw [List.getElem?_append_right (by rw [h.len]; omega), h.len, hz]; rfl
  · rename_i ht
    have ht : t ∈ s.triggers := by simpa using ht
    have hidx : s.triggers.idxOf t < s.triggers.length := List.idxOf_lt_length_iff.mpr ht
    have hget : s.unique.getD (s.triggers.idxOf t) 0 = s.triggers.idxOf t := by
      rw [h.unique, List.getD_eq_getElem?_getD, List.getElem?_range hidx]; rfl
    refine ⟨h.unique, h.nodup, ?_, ?_, ?_⟩
    · intro m
      rw [h.mem m]
      constructor
      · exact fun hm => List.mem_append_left _ hm
      · intro hm
        rcases List.mem_append.mp hm with hm | hm
        · exact hm
        · simp only [List.mem_singleton] at hm
          subst hm
          exact (h.mem m).mp ht
    · simp [h.len]
    · intro i m hi
      by_cases hlt : i < done.length
      · rw [List.getElem?_append_left hlt] at hi
        obtain ⟨k, h1, h2⟩ := h.own i m hi
        refine ⟨k, ?_, h2⟩
        dsimp only; rw [List.getElem?_append_left (by rw [h.len]; exact hlt)]; exact h1
      · rw [List.getElem?_append_right (by omega)] at hi
        have hz : i - done.length = 0 := by
          by_contra hc
          rw [List.getElem?_eq_none (by simp; omega)] at hi; cases hi
        rw [hz] at hi
        simp only [List.getElem?_cons_zero, Option.some.injEq] at hi
        subst hi
        refine ⟨s.triggers.idxOf t, ?_, ?_⟩
        · dsimp only
          rw [hget, List.getElem?_append_right (by rw [h.len]; omega), h.len, hz]; rfl
        · dsimp only
          rw [List.getElem?_eq_getElem hidx, List.getElem_idxOf]

theorem realizeTriggers_inv (models : List Nat) : TrigInv (realizeTriggers models) models := by
  have : ∀ (rest done : List Nat) (s : Trig), TrigInv s done →
      TrigInv (rest.foldl trigStep s) (done ++ rest) := by
    intro rest
    induction rest with
    | nil => intro done s h; simpa using h
    | cons t rest ih =>
      intro done s h
      have := ih (done ++ [t]) _ (trigStep_inv h t)
      simpa using this
  have h0 : TrigInv ⟨[], [], []⟩ [] := ⟨rfl, by simp, by simp, rfl, by simp⟩
  exact this models [] _ h0

/-- **C38**: one realization per device, each drawn from the device's own trigger model; every model
in use is realized exactly once and no other is. -/
theorem C38_one_per_device (models : List Nat) :
    (realizeTriggers models).device.length = models.length ∧
    (realizeTriggers models).triggers.Nodup ∧
    (∀ m, m ∈ (realizeTriggers models).triggers ↔ m ∈ models) ∧
    ∀ (i m : Nat), models[i]? = some m → ∃ k : Nat, (realizeTriggers models).device[i]? = some k ∧
      (realizeTriggers models).triggers[k]? = some m := by
  have h := realizeTriggers_inv models
  exact ⟨h.len, h.nodup, h.mem, h.own⟩

/-- **C38**: two devices get the same realization iff they share their trigger model. -/
theorem C38_shared_iff (models : List Nat) (i j a b : Nat) (hi : models[i]? = some a)
    (hj : models[j]? = some b) :
    (realizeTriggers models).device[i]? = (realizeTriggers models).device[j]? ↔ a = b := by
  have h := realizeTriggers_inv models
  obtain ⟨k, h1, h2⟩ := h.own i a hi
  obtain ⟨l, h3, h4⟩ := h.own j b hj
  rw [h1, h3]
  constructor
  · intro e
    cases e
    rw [h2] at h4
    cases h4; rfl
  · rintro rfl
    congr 1
    have hk : k < (realizeTriggers models).triggers.length := by
      by_contra hc
      rw [List.getElem?_eq_none (by omega)] at h2; cases h2
    exact (List.getElem?_inj hk h.nodup).mp (h2.trans h4.symm)

example : (realizeTriggers [7, 4, 7, 7, 2, 4]).device = [0, 1, 0, 0, 2, 1] := by rfl
example : (realizeTriggers [7, 4, 7, 7, 2, 4]).triggers = [7, 4, 2] := by rfl

end Verif.Sim
