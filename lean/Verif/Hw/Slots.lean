import Verif.Np
import Mathlib.Logic.Function.Basic
import Mathlib.Tactic.SplitIfs

/-!
# C108: calibrations of physical devices

Model of how `hermespy/hardware_loop/physical_device.py` ties calibrations to devices.  Devices and calibrations are objects
with references to each other; each kind of calibration (leakage, delay, antennas) has a slot of its own, with the same
code.  Objects are numbers.
-/

namespace Verif.HwSlots

/-- Devices' slots, calibrations' devices, and the number of the next calibration to be created. -/
structure State where
  slot : ℕ → ℕ
  owner : ℕ → Option ℕ
  next : ℕ

mutual

/-- The setters `leakage_calibration`, `delay_calibration` and `antenna_calibration`, `physical_device.py` 172-180, 192-198
and 209-215.  Calls may nest `fuel` deep. -/
def setSlot : ℕ → ℕ → ℕ → State → Except PyErr State
  | 0, _, _, _ => .error .recursion
  | fuel + 1, d, c, s =>
    if s.slot d = c then .ok s
    else setOwner fuel c (some d) { s with slot := Function.update s.slot d c }

/-- The setter `Calibration.device`, `physical_device.py` 733-746, with `_configure_slot`, 817-821, 923-929 and 983-987: devices
are given a new calibration that does nothing in place of the calibration they lose. -/
def setOwner : ℕ → ℕ → Option ℕ → State → Except PyErr State
  | 0, _, _, _ => .error .recursion
  | fuel + 1, c, v, s =>
    if s.owner c = v then .ok s
    else do
      let s ← match s.owner c with
        | none => .ok s
        | some o => setSlot fuel o s.next { s with next := s.next + 1, owner := Function.update s.owner s.next none }
      let s := { s with owner := Function.update s.owner c v }
      match v with
      | none => .ok s
      | some d => setSlot fuel d c s

end

/-- What users do: create a calibration, with a device or without, `physical_device.py` 717-719; assign a calibration to a device;
assign a device, or none, to a calibration. -/
inductive Op
  | create (device : Option ℕ)
  | assign (d c : ℕ)
  | attach (c : ℕ) (d : Option ℕ)

/-- The recursion limit: calls are at most this deep. -/
def limit : ℕ := 900

/-- A single step. -/
def step (s : State) : Op → Except PyErr State
  | .create device => setOwner limit s.next device { s with next := s.next + 1, owner := Function.update s.owner s.next none }
  | .assign d c => setSlot limit d c s
  | .attach c d => setOwner limit c d s

/-- `PhysicalDevice.__init__`, `physical_device.py` 150-155, without calibrations: each device has a calibration of its own that
does nothing. -/
def initial (devices : ℕ) : State where
  slot d := d
  owner c := if c < devices then some c else none
  next := devices

/-- States reached by histories in which only devices and calibrations that exist are used. -/
inductive Reachable (devices : ℕ) : State → Prop
  | init : Reachable devices (initial devices)
  | create (s t : State) (device : Option ℕ) : Reachable devices s → (∀ d, device = some d → d < devices) →
      step s (.create device) = .ok t → Reachable devices t
  | assign (s t : State) (d c : ℕ) : Reachable devices s → d < devices → c < s.next →
      step s (.assign d c) = .ok t → Reachable devices t
  | attach (s t : State) (c : ℕ) (device : Option ℕ) : Reachable devices s → c < s.next →
      (∀ d, device = some d → d < devices) → step s (.attach c device) = .ok t → Reachable devices t

/-- A device releases its calibration for a new one that does nothing. -/
def release (s : State) (o : ℕ) : State where
  slot := Function.update s.slot o s.next
  owner := Function.update s.owner s.next (some o)
  next := s.next + 1

/-- States make sense: what is in use exists, and calibrations in use refer to their device. -/
structure Ok (devices : ℕ) (s : State) : Prop where
  slot : ∀ d < devices, s.slot d < s.next
  owner : ∀ d < devices, s.owner (s.slot d) = some d
  exist : ∀ c d, s.owner c = some d → d < devices
  fresh : ∀ c, s.next ≤ c → s.owner c = none

theorem release_eq (s : State) (o fuel : ℕ) (h : s.slot o ≠ s.next) :
    setSlot (fuel + 3) o s.next { s with next := s.next + 1, owner := Function.update s.owner s.next none } =
      .ok (release s o) := by
  simp only [setSlot, setOwner, if_neg h, Function.update_self, reduceCtorEq, if_false]
  simp [bind, Except.bind, release]

/-- The state after a calibration was given to a device. -/
def given (s : State) (d c : ℕ) : State :=
  match s.owner c with
  | none => { s with slot := Function.update s.slot d c, owner := Function.update s.owner c (some d) }
  | some o => { slot := Function.update (Function.update s.slot d c) o s.next,
                owner := Function.update (Function.update s.owner s.next (some o)) c (some d), next := s.next + 1 }

theorem setOwner_given {devices : ℕ} (s : State) (hs : Ok devices s) (d c fuel : ℕ) (hne : s.owner c ≠ some d) :
    setOwner (fuel + 5) c (some d) { s with slot := Function.update s.slot d c } = .ok (given s d c) := by
  unfold setOwner
  simp only [if_neg hne]
  cases ho : s.owner c with
  | none =>
    simp [bind, Except.bind, setSlot, given, ho]
  | some o =>
    have hod : o ≠ d := fun h => hne (by rw [ho, h])
    have hfr : (Function.update s.slot d c) o ≠ s.next := by
      rw [Function.update_of_ne hod]
      exact (hs.slot o (hs.exist c o ho)).ne
    have h := release_eq { s with slot := Function.update s.slot d c } o (fuel + 1) hfr
    simp only at h ⊢
    rw [h]
    simp [bind, Except.bind, setSlot, release, given, ho, hod.symm]

/-- Assignments to devices. -/
theorem setSlot_eq {devices : ℕ} (s : State) (hs : Ok devices s) (d c fuel : ℕ) :
    setSlot (fuel + 6) d c s = .ok (if s.slot d = c then s
      else if s.owner c = some d then { s with slot := Function.update s.slot d c } else given s d c) := by
  unfold setSlot
  by_cases h : s.slot d = c
  · rw [if_pos h, if_pos h]
  · rw [if_neg h, if_neg h]
    by_cases h2 : s.owner c = some d
    · rw [if_pos h2]
      unfold setOwner
      rw [if_pos (by simpa using h2)]
    · rw [if_neg h2]
      exact setOwner_given s hs d c fuel h2

/-- Assignments to calibrations. -/
theorem setOwner_eq {devices : ℕ} (s : State) (hs : Ok devices s) (d c fuel : ℕ) (hd : d < devices) :
    setOwner (fuel + 5) c (some d) s = .ok (if s.owner c = some d then s else given s d c) := by
  unfold setOwner
  by_cases h : s.owner c = some d
  · rw [if_pos h, if_pos h]
  · rw [if_neg h, if_neg h]
    have hdc : s.slot d ≠ c := fun he => h (by rw [← he]; exact hs.owner d hd)
    cases ho : s.owner c with
    | none => simp [bind, Except.bind, setSlot, setOwner, given, ho, hdc]
    | some o =>
      have hod : o ≠ d := fun he => h (by rw [ho, he])
      have hfr : s.slot o ≠ s.next := (hs.slot o (hs.exist c o ho)).ne
      have hr := release_eq s o (fuel + 1) hfr
      simp only at hr ⊢
      rw [hr]
      simp [bind, Except.bind, setSlot, setOwner, release, given, ho, hod.symm, hdc]
      exact Function.update_comm hod _ _ _

/-- Calibrations released by their device. -/
theorem setOwner_none {devices : ℕ} (s : State) (hs : Ok devices s) (c fuel : ℕ) :
    setOwner (fuel + 5) c none s = .ok (match s.owner c with
      | none => s
      | some o => { release s o with owner := Function.update (release s o).owner c none }) := by
  unfold setOwner
  cases ho : s.owner c with
  | none => rfl
  | some o =>
    have hfr : s.slot o ≠ s.next := (hs.slot o (hs.exist c o ho)).ne
    have hr := release_eq s o (fuel + 1) hfr
    simp only [reduceCtorEq, if_false] at hr ⊢
    rw [hr]
    rfl

theorem ok_initial (devices : ℕ) : Ok devices (initial devices) where
  slot d hd := hd
  owner d hd := by simp [initial, hd]
  exist c d h := by
    simp only [initial] at h
    split_ifs at h with h1
    injection h with h
    omega
  fresh c hc := by
    simp only [initial] at hc ⊢
    rw [if_neg (by omega)]

theorem ok_given {devices : ℕ} (s : State) (hs : Ok devices s) (d c : ℕ) (hd : d < devices) (hc : c < s.next)
    (hne : s.owner c ≠ some d) : Ok devices (given s d c) := by
  unfold given
  cases ho : s.owner c with
  | none =>
    refine ⟨fun e he => ?_, fun e he => ?_, fun x e hx => ?_, fun x hx => ?_⟩
    · by_cases h : e = d
      · subst h; simp [hc]
      · simp [Function.update_of_ne h, hs.slot e he]
    · by_cases h : e = d
      · subst h; simp
      · have : s.slot e ≠ c := fun h2 => by rw [← h2, hs.owner e he] at ho; cases ho
        simp [Function.update_of_ne h, Function.update_of_ne this, hs.owner e he]
    · by_cases h : x = c
      · subst h
        simp at hx
        omega
      · simp [Function.update_of_ne h] at hx
        exact hs.exist x e hx
    · have : x ≠ c := by simp only at hx; omega
      simp [Function.update_of_ne this, hs.fresh x hx]
  | some o =>
    have hod : o ≠ d := fun he => hne (by rw [ho, he])
    have hodev := hs.exist c o ho
    refine ⟨fun e he => ?_, fun e he => ?_, fun x e hx => ?_, fun x hx => ?_⟩
    · by_cases h2 : e = o
      · subst h2; simp
      · by_cases h : e = d
        · subst h; simp [Function.update_of_ne h2]; omega
        · simp only [Function.update_of_ne h2, Function.update_of_ne h]
          have := hs.slot e he
          omega
    · by_cases h2 : e = o
      · subst h2
        have : s.next ≠ c := by omega
        simp [Function.update_of_ne this]
      · by_cases h : e = d
        · subst h; simp [Function.update_of_ne h2]
        · have h3 : s.slot e ≠ c := fun h4 => by
            rw [← h4, hs.owner e he] at ho
            injection ho with ho
            exact h2 ho
          have h4 : s.slot e ≠ s.next := (hs.slot e he).ne
          simp [Function.update_of_ne h2, Function.update_of_ne h, Function.update_of_ne h3, Function.update_of_ne h4,
            hs.owner e he]
    · by_cases h : x = c
      · subst h
        simp at hx
        omega
      · by_cases h2 : x = s.next
        · subst h2
          simp [Function.update_of_ne h] at hx
          omega
        · simp [Function.update_of_ne h, Function.update_of_ne h2] at hx
          exact hs.exist x e hx
    · simp only at hx
      have h1 : x ≠ c := by omega
      have h2 : x ≠ s.next := by omega
      simp [Function.update_of_ne h1, Function.update_of_ne h2, hs.fresh x (by omega)]

theorem ok_reassign {devices : ℕ} (s : State) (hs : Ok devices s) (d c : ℕ) (hc : c < s.next)
    (ho : s.owner c = some d) : Ok devices { s with slot := Function.update s.slot d c } := by
  refine ⟨fun e he => ?_, fun e he => ?_, hs.exist, hs.fresh⟩
  · by_cases h : e = d
    · subst h; simp [hc]
    · simp [Function.update_of_ne h, hs.slot e he]
  · by_cases h : e = d
    · subst h; simp [ho]
    · simp [Function.update_of_ne h, hs.owner e he]

theorem ok_release {devices : ℕ} (s : State) (hs : Ok devices s) (o c : ℕ) (hc : c < s.next) (ho : s.owner c = some o) :
    Ok devices { release s o with owner := Function.update (release s o).owner c none } := by
  have hodev := hs.exist c o ho
  refine ⟨fun e he => ?_, fun e he => ?_, fun x e hx => ?_, fun x hx => ?_⟩
  · by_cases h : e = o
    · subst h; simp [release]
    · have := hs.slot e he
      simp only [release, Function.update_of_ne h]
      omega
  · by_cases h : e = o
    · subst h
      have : s.next ≠ c := by omega
      simp [release, Function.update_of_ne this]
    · have h3 : s.slot e ≠ c := fun h4 => by
        rw [← h4, hs.owner e he] at ho
        injection ho with ho
        exact h ho
      have h4 : s.slot e ≠ s.next := (hs.slot e he).ne
      simp [release, Function.update_of_ne h, Function.update_of_ne h3, Function.update_of_ne h4, hs.owner e he]
  · by_cases h : x = c
    · subst h; simp at hx
    · by_cases h2 : x = s.next
      · subst h2
        simp [release, Function.update_of_ne h] at hx
        omega
      · simp [release, Function.update_of_ne h, Function.update_of_ne h2] at hx
        exact hs.exist x e hx
  · simp only [release] at hx
    have h1 : x ≠ c := by omega
    have h2 : x ≠ s.next := by omega
    simp [release, Function.update_of_ne h1, Function.update_of_ne h2, hs.fresh x (by omega)]

theorem ok_new {devices : ℕ} (s : State) (hs : Ok devices s) :
    Ok devices { s with next := s.next + 1, owner := Function.update s.owner s.next none } := by
  have e : Function.update s.owner s.next none = s.owner := by
    rw [← hs.fresh s.next le_rfl, Function.update_eq_self]
  rw [e]
  exact ⟨fun d hd => (hs.slot d hd).trans (Nat.lt_succ_self _), hs.owner, hs.exist, fun c hc => hs.fresh c (by
    simp only at hc; omega)⟩

theorem reachable_ok {devices : ℕ} {s : State} (h : Reachable devices s) : Ok devices s := by
  induction h with
  | init => exact ok_initial devices
  | create s t device _ hd ht ih =>
    have hn := ok_new s ih
    simp only [step] at ht
    cases device with
    | none =>
      rw [show limit = 895 + 5 from rfl, setOwner_none _ hn] at ht
      simp only [Function.update_self] at ht
      cases ht
      exact hn
    | some d =>
      rw [show limit = 895 + 5 from rfl, setOwner_eq _ hn _ _ _ (hd d rfl)] at ht
      simp only [Function.update_self, reduceCtorEq, if_false] at ht
      cases ht
      exact ok_given _ hn d _ (hd d rfl) (Nat.lt_succ_self _) (by simp)
  | assign s t d c _ hd hc ht ih =>
    simp only [step] at ht
    rw [show limit = 894 + 6 from rfl, setSlot_eq s ih] at ht
    cases ht
    split_ifs with h1 h2
    · exact ih
    · exact ok_reassign s ih d c hc h2
    · exact ok_given s ih d c hd hc h2
  | attach s t c device _ hc hd ht ih =>
    simp only [step] at ht
    cases device with
    | none =>
      rw [show limit = 895 + 5 from rfl, setOwner_none s ih c] at ht
      cases ht
      cases ho : s.owner c with
      | none => exact ih
      | some o => exact ok_release s ih o c hc ho
    | some d =>
      rw [show limit = 895 + 5 from rfl, setOwner_eq s ih d c _ (hd d rfl)] at ht
      cases ht
      split_ifs with h2
      · exact ih
      · exact ok_given s ih d c (hd d rfl) hc h2

/-- C108: after any history, the calibration of a device refers to that device, and no two devices share one. -/
theorem C108_consistent {devices : ℕ} {s : State} (h : Reachable devices s) (d : ℕ) (hd : d < devices) :
    s.owner (s.slot d) = some d ∧ ∀ e < devices, s.slot d = s.slot e → d = e := by
  have hs := reachable_ok h
  refine ⟨hs.owner d hd, fun e he hde => ?_⟩
  have h1 := hs.owner d hd
  rw [hde, hs.owner e he] at h1
  injection h1 with h1
  exact h1.symm

/-- C108: assignments never fail, whichever side they are made from. -/
theorem C108_total {devices : ℕ} {s : State} (h : Reachable devices s) (d c : ℕ) (hd : d < devices) :
    (∃ t, step s (.assign d c) = .ok t) ∧ (∃ t, step s (.attach c (some d)) = .ok t) ∧
    (∃ t, step s (.attach c none) = .ok t) ∧ (∃ t, step s (.create none) = .ok t) ∧
    ∃ t, step s (.create (some d)) = .ok t := by
  have hs := reachable_ok h
  have hn := ok_new s hs
  refine ⟨⟨_, setSlot_eq s hs d c 894⟩, ⟨_, setOwner_eq s hs d c 895 hd⟩, ⟨_, setOwner_none s hs c 895⟩,
    ⟨_, setOwner_none _ hn _ 895⟩, ⟨_, setOwner_eq _ hn d _ 895 hd⟩⟩

/-- C108: a calibration assigned to a device is the one the device uses, and refers to it. -/
theorem C108_assign {devices : ℕ} {s t : State} (h : Reachable devices s) (d c : ℕ) (hd : d < devices)
    (ht : step s (.assign d c) = .ok t) : t.slot d = c ∧ t.owner c = some d := by
  have hs := reachable_ok h
  simp only [step] at ht
  rw [show limit = 894 + 6 from rfl, setSlot_eq s hs] at ht
  cases ht
  split_ifs with h1 h2
  · exact ⟨h1, by rw [← h1]; exact hs.owner d hd⟩
  · exact ⟨by simp, h2⟩
  · unfold given
    cases ho : s.owner c with
    | none => simp
    | some o =>
      have hod : o ≠ d := fun he => h2 (by rw [ho, he])
      simp [Function.update_of_ne hod.symm]

/-- C108: assigning a device to a calibration is the same, unless the calibration was replaced before. -/
theorem C108_attach_partial {devices : ℕ} {s : State} (h : Reachable devices s) (d c : ℕ) (hd : d < devices)
    (hu : s.owner c = some d → s.slot d = c) :
    step s (.attach c (some d)) = step s (.assign d c) := by
  have hs := reachable_ok h
  simp only [step]
  rw [show limit = 894 + 6 from rfl, setSlot_eq s hs, show 894 + 6 = 895 + 5 from rfl, setOwner_eq s hs d c _ hd]
  congr 1
  by_cases h1 : s.owner c = some d
  · rw [if_pos h1, if_pos (hu h1)]
  · have h2 : s.slot d ≠ c := fun he => h1 (by rw [← he]; exact hs.owner d hd)
    rw [if_neg h1, if_neg h2, if_neg h1]

/-- C108 fails for calibrations replaced before: they still refer to the device, and assigning it to them does nothing, while
the device keeps using the other one. -/
theorem C108_attach_fails {devices : ℕ} {s t : State} (h : Reachable devices s) (d c : ℕ) (hd : d < devices)
    (ho : s.owner c = some d) (hne : s.slot d ≠ c) (ht : step s (.attach c (some d)) = .ok t) :
    t.slot d = s.slot d ∧ t.slot d ≠ c ∧ t.owner c = some d := by
  have hs := reachable_ok h
  simp only [step] at ht
  rw [show limit = 895 + 5 from rfl, setOwner_eq s hs d c _ hd, if_pos ho] at ht
  cases ht
  exact ⟨rfl, hne, ho⟩

/-- C108: other devices keep their calibration when one is assigned that no other device refers to. -/
theorem C108_others_partial {devices : ℕ} {s t : State} (h : Reachable devices s) (d c e : ℕ)
    (he : e ≠ d) (hu : s.owner c ≠ some e) (ht : step s (.assign d c) = .ok t) : t.slot e = s.slot e := by
  have hs := reachable_ok h
  simp only [step] at ht
  rw [show limit = 894 + 6 from rfl, setSlot_eq s hs] at ht
  cases ht
  split_ifs with h1 h2
  · rfl
  · simp [Function.update_of_ne he]
  · unfold given
    cases ho : s.owner c with
    | none => simp [Function.update_of_ne he]
    | some o =>
      have hoe : e ≠ o := fun h3 => hu (by rw [ho, h3])
      simp [Function.update_of_ne hoe, Function.update_of_ne he]

/-- C108: a calibration in use that is taken away leaves its device with a new calibration that does nothing. -/
theorem C108_detach {devices : ℕ} {s t : State} (h : Reachable devices s) (e : ℕ) (he : e < devices)
    (ht : step s (.attach (s.slot e) none) = .ok t) :
    t.slot e = s.next ∧ t.owner (s.slot e) = none ∧ ∀ d, d ≠ e → t.slot d = s.slot d := by
  have hs := reachable_ok h
  simp only [step] at ht
  rw [show limit = 895 + 5 from rfl, setOwner_none s hs] at ht
  cases ht
  simp only [hs.owner e he, release, Function.update_self, true_and]
  exact fun d hd => by simp [Function.update_of_ne hd]

/-- C108 fails for calibrations that were replaced: giving a replaced calibration `c` of a device `e` to another device, or
detaching it, takes the calibration in use from the device. -/
theorem C108_replaced_fails {devices : ℕ} {s t : State} (h : Reachable devices s) (d c e : ℕ) (hed : e ≠ d)
    (hd : d < devices) (he : e < devices) (ho : s.owner c = some e) (hne : s.slot e ≠ c) :
    (step s (.assign d c) = .ok t → t.slot e = s.next ∧ t.slot e ≠ s.slot e) ∧
    (step s (.attach c none) = .ok t → t.slot e = s.next ∧ t.slot e ≠ s.slot e) := by
  have hs := reachable_ok h
  have hlt := hs.slot e he
  have _ := hne
  constructor
  · intro ht
    simp only [step] at ht
    rw [show limit = 894 + 6 from rfl, setSlot_eq s hs] at ht
    cases ht
    have h2 : s.owner c ≠ some d := by rw [ho]; simpa using hed
    have h1 : s.slot d ≠ c := fun h1 => h2 (by rw [← h1]; exact hs.owner d hd)
    rw [if_neg h1, if_neg h2]
    unfold given
    simp only [ho, Function.update_self]
    exact ⟨trivial, hlt.ne'⟩
  · intro ht
    simp only [step] at ht
    rw [show limit = 895 + 5 from rfl, setOwner_none s hs c] at ht
    cases ht
    simp only [ho, release, Function.update_self]
    exact ⟨trivial, hlt.ne'⟩

/-- Replaced calibrations that still refer to their device are reached by every device, in two assignments. -/
theorem replaced_reachable (devices d : ℕ) (hd : d < devices) :
    ∃ s c, Reachable devices s ∧ s.owner c = some d ∧ s.slot d ≠ c := by
  obtain ⟨-, -, -, -, t, ht⟩ := C108_total (Reachable.init (devices := devices)) d 0 hd
  have hr := Reachable.create _ t (some d) Reachable.init (fun e he => by cases he; exact hd) ht
  refine ⟨t, d, hr, ?_, ?_⟩
  all_goals
    simp only [step] at ht
    rw [show limit = 895 + 5 from rfl, setOwner_eq _ (ok_new _ (ok_initial devices)) _ _ _ hd] at ht
    simp only [Function.update_self, reduceCtorEq, if_false] at ht
    cases ht
    simp [given, initial, hd, Function.update_of_ne hd.ne]
    try omega

example : ∃ s c, Reachable 2 s ∧ s.owner c = some 1 ∧ s.slot 1 ≠ c := replaced_reachable 2 1 (by norm_num)

/-- A calibration moved from device 0 to device 1: device 0 is left with a new calibration. -/
example : ∃ t, step (initial 2) (.assign 1 0) = .ok t ∧ t.slot 1 = 0 ∧ t.slot 0 = 2 ∧ t.owner 2 = some 0 := by
  obtain ⟨⟨t, ht⟩, -⟩ := C108_total (Reachable.init (devices := 2)) 1 0 (by norm_num)
  refine ⟨t, ht, (C108_assign Reachable.init 1 0 (by norm_num) ht).1, ?_⟩
  have hr := Reachable.assign _ t 1 0 Reachable.init (by norm_num) (by simp [initial]) ht
  simp only [step] at ht
  rw [show limit = 894 + 6 from rfl, setSlot_eq _ (ok_initial 2)] at ht
  cases ht
  simp [given, initial, Function.update]

end Verif.HwSlots
