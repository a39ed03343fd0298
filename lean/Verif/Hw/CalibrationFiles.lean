import Verif.Np
import Mathlib.Logic.Function.Basic
import Mathlib.Tactic.SplitIfs
import Mathlib.Algebra.Order.Ring.Rat

/-!
# C144: calibrations in files

Model of `save_calibration` and `load_calibration` of physical devices, `hermespy/hardware_loop/physical_device.py` 217-281, and of
`Calibration.save` and `Calibration.Load`, 766-809, with what they use of `hermespy/core/factory.py`.  Arrays are values of any type
`A`; that equal arrays may be stored as links is C32.  The calibration slots' references back to devices are C108.
-/

namespace Verif.HwCalibrationFiles

open Verif (PyErr)

/-- Names of groups, `hdf_group_name`, `physical_device.py` 815, 921 and 981. -/
inductive Kind
  | leakage
  | delay
  | antenna
  deriving DecidableEq

/-- Classes of calibrations; those users define are `own`. -/
inductive Cls
  | noLeakage
  | selective
  | noDelay
  | static
  | noAntenna
  | scalar
  | own (k : Kind) (n : ℕ)
  deriving DecidableEq

/-- The base class. -/
def Cls.kind : Cls → Kind
  | .noLeakage => .leakage
  | .selective => .leakage
  | .noDelay => .delay
  | .static => .delay
  | .noAntenna => .antenna
  | .scalar => .antenna
  | .own k _ => k

/-- `Factory.__init__`, `factory.py` 161-204: classes the package exports are registered, which are all of its calibrations (lines 3
and 12-22 of the package's initialisation). -/
def Cls.registered : Cls → Bool
  | .own _ _ => false
  | _ => true

/-- Calibrations.  `ports` are the transmit and receive ports of leakage calibrations, `calibration/leakage.py` 40-41. -/
inductive Cal (A : Type)
  | noLeakage
  | selective (response : A) (rate delay : ℚ) (ports : Option (List ℕ) × Option (List ℕ))
  | noDelay
  | static (delay : ℚ)
  | noAntenna
  | scalar (transmit receive : A)
  | own (k : Kind) (n : ℕ)

variable {A : Type}

/-- `type`. -/
def Cal.cls : Cal A → Cls
  | .noLeakage => .noLeakage
  | .selective _ _ _ _ => .selective
  | .noDelay => .noDelay
  | .static _ => .static
  | .noAntenna => .noAntenna
  | .scalar _ _ => .scalar
  | .own k n => .own k n

/-- A group of a file: the attribute "type", arrays and numbers. -/
structure Group (A : Type) where
  type : Option Cls
  arrays : List (String × A)
  numbers : List (String × ℚ)

/-- `serialize`, `physical_device.py` 907-908, 967-968 and 1026-1027, `calibration/leakage.py` 554-557, `calibration/delay.py` 129-130
and `calibration/antennas.py` 197-199. -/
def Cal.serialize : Cal A → List (String × A) × List (String × ℚ)
  | .selective h r d _ => ([("leakage_response", h)], [("sampling_rate", r), ("delay", d)])
  | .static d => ([], [("delay", d)])
  | .scalar t r => ([("transmit_correction_weights", t), ("receive_correction_weights", r)], [])
  | _ => ([], [])

/-- `deserialize_array` and `deserialize_floating` without defaults, `factory.py` 1066-1091 and 1101-1108. -/
def fetch {α : Type} (l : List (String × α)) (name : String) : Except PyErr α :=
  match l.lookup name with
  | some x => .ok x
  | none => .error .runtime

/-- `Deserialize`, `physical_device.py` 910-915, 970-975 and 1029-1034, `calibration/leakage.py` 559-568 with `__init__`, 43-85, of
three-dimensional responses, `calibration/delay.py` 132-137 and `calibration/antennas.py` 201-207. -/
def deserialize (c : Cls) (g : Group A) : Except PyErr (Cal A) :=
  match c with
  | .noLeakage => .ok .noLeakage
  | .selective => do
    let h ← fetch g.arrays "leakage_response"
    let r ← fetch g.numbers "sampling_rate"
    let d := (g.numbers.lookup "delay").getD 0
    if r ≤ 0 then .error .value
    else if d < 0 then .error .value
    else .ok (.selective h r d (none, none))
  | .noDelay => .ok .noDelay
  | .static => do
    let d ← fetch g.numbers "delay"
    .ok (.static d)
  | .noAntenna => .ok .noAntenna
  | .scalar => do
    let t ← fetch g.arrays "transmit_correction_weights"
    let r ← fetch g.arrays "receive_correction_weights"
    .ok (.scalar t r)
  | .own _ _ => .error .runtime

/-- Groups of calibrations by name. -/
abbrev Camp (A : Type) := Kind → Option (Group A)

/-- A file: what is stored at its root, and in the campaign "calibration" if there is one. -/
structure File (A : Type) where
  root : Camp A
  campaign : Option (Camp A)

/-- `serialize_object`, `factory.py` 414-436, with `_serialize_object`, 921-958: groups that exist are left alone.  `fault` is raised
by storage while the object is written, after its group was created and before its type is noted. -/
def writeObject (fault : Option PyErr) (c : Cal A) (k : Kind) (g : Camp A) : Except PyErr Unit × Camp A :=
  if !c.cls.registered then (.error .runtime, g)
  else if (g k).isSome then (.ok (), g)
  else match fault with
    | some e => (.error e, Function.update g k (some ⟨none, [], []⟩))
    | none => (.ok (), Function.update g k (some ⟨some c.cls, c.serialize.1, c.serialize.2⟩))

/-- `deserialize_object`, `factory.py` 699-751, with `_deserialize_object`, 1137-1190: nothing if there is no such group. -/
def readObject (expected : Cls → Bool) (k : Kind) (g : Camp A) : Except PyErr (Option (Cal A)) :=
  match g k with
  | none => .ok none
  | some grp =>
    match grp.type with
    | none => .error .runtime
    | some c =>
      if !c.registered then .error .runtime
      else if !expected c then .error .runtime
      else (deserialize c grp).map some

/-- The calibrations of a device. -/
abbrev Slots (A : Type) := Kind → Cal A

/-- Files by path. -/
abbrev Disk (A : Type) := String → Option (File A)

/-- `File(target, mode="a")`, `factory.py` 301: files that exist are kept. -/
def opened (fs : Disk A) (path : String) : File A := (fs path).getD ⟨fun _ => none, none⟩

/-- Objects written one after another, until one raises. -/
def writeAll (fault : Kind → Option PyErr) (s : Slots A) : List Kind → Camp A → Except PyErr Unit × Camp A
  | [], g => (.ok (), g)
  | k :: ks, g =>
    match writeObject (fault k) (s k) k g with
    | (.error e, g') => (.error e, g')
    | (.ok _, g') => writeAll fault s ks g'

/-- `save_calibration`, `physical_device.py` 217-243: at the root, and the file is closed in any case. -/
def saveDevice (fault : Kind → Option PyErr) (path : String) (s : Slots A) (fs : Disk A) : Except PyErr Unit × Disk A :=
  let f := opened fs path
  let r := writeAll fault s [.leakage, .delay, .antenna] f.root
  (r.1, Function.update fs path (some { f with root := r.2 }))

/-- `Calibration.save`, `physical_device.py` 766-784: in the campaign "calibration", `factory.py` 873-878. -/
def saveOne (fault : Option PyErr) (path : String) (c : Cal A) (fs : Disk A) : Except PyErr Unit × Disk A :=
  let f := opened fs path
  let r := writeObject fault c c.cls.kind (f.campaign.getD fun _ => none)
  (r.1, Function.update fs path (some { f with campaign := some r.2 }))

/-- Files that are not there raise `FileNotFoundError`. -/
inductive Err
  | noFile
  | py (e : PyErr)
  deriving DecidableEq

/-- Errors within files. -/
def within {α : Type} : Except PyErr α → Except Err α
  | .ok x => .ok x
  | .error e => .error (.py e)

/-- Assigns a calibration that was found, `physical_device.py` 272-277. -/
def apply (s : Slots A) (k : Kind) : Option (Cal A) → Slots A
  | none => s
  | some c => Function.update s k c

/-- `load_calibration`, `physical_device.py` 245-281: the calibrations of the device afterwards, and whether something was raised.
All are read before the first is assigned. -/
def loadDevice (path : String) (s : Slots A) (fs : Disk A) : Except Err Unit × Slots A :=
  match fs path with
  | none => (.error .noFile, s)
  | some f =>
    match readObject (fun c => c.kind = .leakage) .leakage f.root with
    | .error e => (.error (.py e), s)
    | .ok l =>
      match readObject (fun c => c.kind = .delay) .delay f.root with
      | .error e => (.error (.py e), s)
      | .ok d =>
        match readObject (fun c => c.kind = .antenna) .antenna f.root with
        | .error e => (.error (.py e), s)
        | .ok a => (.ok (), apply (apply (apply s .leakage l) .delay d) .antenna a)

/-- `Calibration.Load`, `physical_device.py` 786-809, of a class or base class of kind `k` which accepts the classes `expected`;
`factory.py` 1048-1051. -/
def loadOne (path : String) (expected : Cls → Bool) (k : Kind) (fs : Disk A) : Except Err (Cal A) :=
  match fs path with
  | none => .error .noFile
  | some f =>
    match f.campaign with
    | none => .error (.py .runtime)
    | some g =>
      match readObject expected k g with
      | .error e => .error (.py e)
      | .ok none => .error (.py .runtime)
      | .ok (some x) => .ok x

/-- What programs do with files; storage may fail at any point. -/
inductive Op (A : Type)
  | device (path : String) (s : Slots A) (fault : Kind → Option PyErr)
  | single (path : String) (c : Cal A) (fault : Option PyErr)

/-- A single step. -/
def step (fs : Disk A) : Op A → Disk A
  | .device path s fault => (saveDevice fault path s fs).2
  | .single path c fault => (saveOne fault path c fs).2

/-- A history. -/
def run (fs : Disk A) (ops : List (Op A)) : Disk A := ops.foldl step fs

/-! ## What is stored stays -/

/-- The groups of a device's calibrations in a file. -/
def atRoot (fs : Disk A) (path : String) (k : Kind) : Option (Group A) := (opened fs path).root k

/-- The groups of single calibrations in a file. -/
def inCampaign (fs : Disk A) (path : String) (k : Kind) : Option (Group A) := ((opened fs path).campaign.getD fun _ => none) k

theorem writeObject_kept (fault : Option PyErr) (c : Cal A) (k j : Kind) (g : Camp A) (x : Group A) (h : g j = some x) :
    (writeObject fault c k g).2 j = some x := by
  unfold writeObject
  by_cases h1 : (!c.cls.registered) = true
  · rw [if_pos h1]; exact h
  rw [if_neg h1]
  by_cases h2 : (g k).isSome = true
  · rw [if_pos h2]; exact h
  rw [if_neg h2]
  have hjk : j ≠ k := by
    rintro rfl
    rw [h] at h2
    exact h2 rfl
  cases fault with
  | none => exact (Function.update_of_ne hjk _ _).trans h
  | some e => exact (Function.update_of_ne hjk _ _).trans h

theorem writeAll_kept (fault : Kind → Option PyErr) (s : Slots A) (ks : List Kind) (j : Kind) (g : Camp A) (x : Group A)
    (h : g j = some x) : (writeAll fault s ks g).2 j = some x := by
  induction ks generalizing g with
  | nil => exact h
  | cons k ks ih =>
    have h1 := writeObject_kept (fault k) (s k) k j g x h
    unfold writeAll
    cases hw : writeObject (fault k) (s k) k g with
    | mk r g' =>
      rw [hw] at h1
      cases r with
      | error e => exact h1
      | ok _ => exact ih g' h1

theorem opened_update (fs : Disk A) (p q : String) (f : File A) :
    opened (Function.update fs p (some f)) q = if q = p then f else opened fs q := by
  unfold opened
  by_cases h : q = p
  · subst h; rw [if_pos rfl, Function.update_self]; rfl
  · rw [if_neg h, Function.update_of_ne h]

theorem step_kept (fs : Disk A) (op : Op A) (path : String) (k : Kind) (x : Group A) :
    (atRoot fs path k = some x → atRoot (step fs op) path k = some x) ∧
    (inCampaign fs path k = some x → inCampaign (step fs op) path k = some x) := by
  cases op with
  | device p s fault =>
    unfold atRoot inCampaign step saveDevice
    dsimp only
    rw [opened_update]
    by_cases h : path = p
    · subst h
      rw [if_pos rfl]
      exact ⟨fun hx => writeAll_kept _ _ _ _ _ _ hx, id⟩
    · rw [if_neg h]
      exact ⟨id, id⟩
  | single p c fault =>
    unfold atRoot inCampaign step saveOne
    dsimp only
    rw [opened_update]
    by_cases h : path = p
    · subst h
      rw [if_pos rfl]
      exact ⟨id, fun hx => writeObject_kept _ _ _ _ _ _ hx⟩
    · rw [if_neg h]
      exact ⟨id, id⟩

theorem run_kept (fs : Disk A) (ops : List (Op A)) (path : String) (k : Kind) (x : Group A) :
    (atRoot fs path k = some x → atRoot (run fs ops) path k = some x) ∧
    (inCampaign fs path k = some x → inCampaign (run fs ops) path k = some x) := by
  induction ops generalizing fs with
  | nil => exact ⟨id, id⟩
  | cons op ops ih =>
    have h := step_kept fs op path k x
    have h' := ih (step fs op)
    exact ⟨fun hx => h'.1 (h.1 hx), fun hx => h'.2 (h.2 hx)⟩

/-! ## Properties -/

/-- Calibrations as they can be created: rates are positive and delays of leakage not negative, `calibration/leakage.py` 71-75. -/
def Valid : Cal A → Prop
  | .selective _ r d _ => 0 < r ∧ 0 ≤ d
  | _ => True

/-- A calibration without its ports. -/
def withoutPorts : Cal A → Cal A
  | .selective h r d _ => .selective h r d (none, none)
  | c => c

/-- What is stored of a calibration. -/
def stored (c : Cal A) : Group A := ⟨some c.cls, c.serialize.1, c.serialize.2⟩

theorem deserialize_stored (c : Cal A) (hv : Valid c) (hr : c.cls.registered = true) :
    deserialize c.cls (stored c) = .ok (withoutPorts c) := by
  cases c with
  | selective h r d p =>
    have h1 : ¬ r ≤ 0 := not_le.mpr hv.1
    have h2 : ¬ d < 0 := not_lt.mpr hv.2
    simp [deserialize, stored, Cal.cls, Cal.serialize, fetch, List.lookup, withoutPorts, bind, Except.bind, h1, h2]
  | own k n => simp [Cal.cls, Cls.registered] at hr
  | _ => simp [deserialize, stored, Cal.cls, Cal.serialize, fetch, List.lookup, withoutPorts, bind, Except.bind]

theorem readObject_stored (c : Cal A) (hv : Valid c) (hr : c.cls.registered = true) (expected : Cls → Bool)
    (he : expected c.cls = true) (k : Kind) (g : Camp A) (hg : g k = some (stored c)) :
    readObject expected k g = .ok (some (withoutPorts c)) := by
  unfold readObject
  rw [hg]
  have := deserialize_stored c hv hr
  simp [stored, hr, he] at this ⊢
  rw [this]
  rfl

/-- The calibrations devices can have: each of its kind, and valid. -/
def Proper (s : Slots A) : Prop := ∀ k, (s k).cls.kind = k ∧ (s k).cls.registered = true ∧ Valid (s k)

theorem writeObject_new (c : Cal A) (hr : c.cls.registered = true) (k : Kind) (g : Camp A) (hg : g k = none) :
    writeObject none c k g = (.ok (), Function.update g k (some (stored c))) := by
  unfold writeObject
  rw [if_neg (by simp [hr]), if_neg (by simp [hg])]
  rfl

theorem saveDevice_new (path : String) (s : Slots A) (hs : Proper s) (fs : Disk A) (hn : ∀ k, atRoot fs path k = none) :
    (saveDevice (fun _ => none) path s fs).1 = .ok () ∧
    ∀ k, atRoot (saveDevice (fun _ => none) path s fs).2 path k = some (stored (s k)) := by
  have h1 : writeAll (fun _ => none) s [.leakage, .delay, .antenna] (opened fs path).root =
      (.ok (), fun k => some (stored (s k))) := by
    have hl := hn .leakage
    have hd := hn .delay
    have ha := hn .antenna
    unfold atRoot at hl hd ha
    unfold writeAll
    rw [writeObject_new _ (hs .leakage).2.1 _ _ hl]
    dsimp only
    unfold writeAll
    rw [writeObject_new _ (hs .delay).2.1 _ _ (by rw [Function.update_of_ne (by decide)]; exact hd)]
    dsimp only
    unfold writeAll
    rw [writeObject_new _ (hs .antenna).2.1 _ _ (by
      rw [Function.update_of_ne (by decide), Function.update_of_ne (by decide)]; exact ha)]
    dsimp only
    unfold writeAll
    refine Prod.ext rfl (funext fun k => ?_)
    cases k <;> simp [Function.update]
  unfold saveDevice
  dsimp only
  rw [h1]
  refine ⟨rfl, fun k => ?_⟩
  unfold atRoot
  rw [opened_update, if_pos rfl]

theorem loadDevice_stored (path : String) (s dev : Slots A) (hs : Proper s) (fs : Disk A)
    (h : ∀ k, atRoot fs path k = some (stored (s k))) :
    loadDevice path dev fs = (.ok (), fun k => withoutPorts (s k)) := by
  unfold loadDevice
  cases hf : fs path with
  | none =>
    have := h .leakage
    unfold atRoot opened at this
    rw [hf] at this
    simp at this
  | some f =>
    have hk : ∀ k, f.root k = some (stored (s k)) := by
      intro k
      have := h k
      unfold atRoot opened at this
      rwa [hf] at this
    dsimp only
    rw [readObject_stored (s .leakage) (hs _).2.2 (hs _).2.1 _ (by simp [(hs .leakage).1]) _ _ (hk _)]
    dsimp only
    rw [readObject_stored (s .delay) (hs _).2.2 (hs _).2.1 _ (by simp [(hs .delay).1]) _ _ (hk _)]
    dsimp only
    rw [readObject_stored (s .antenna) (hs _).2.2 (hs _).2.1 _ (by simp [(hs .antenna).1]) _ _ (hk _)]
    dsimp only
    refine Prod.ext rfl (funext fun k => ?_)
    cases k <;> simp [apply, Function.update]

/-- C144: what a device saved to a new file is what any device loads from it, but for the ports of leakage calibrations, whatever
is done to other files meanwhile. -/
theorem C144_device_partial (fs : Disk A) (path : String) (hnew : fs path = none) (s dev : Slots A) (hs : Proper s)
    (ops : List (Op A)) :
    (saveDevice (fun _ => none) path s fs).1 = .ok () ∧
    loadDevice path dev (run (saveDevice (fun _ => none) path s fs).2 ops) = (.ok (), fun k => withoutPorts (s k)) := by
  have h := saveDevice_new path s hs fs (fun k => by unfold atRoot opened; rw [hnew]; rfl)
  exact ⟨h.1, loadDevice_stored path s dev hs _ fun k => (run_kept _ ops path k _).1 (h.2 k)⟩

/-- C144 fails for leakage calibrations of selected ports, which are loaded without the selection. -/
theorem C144_ports_fails (fs : Disk A) (path : String) (hnew : fs path = none) (s dev : Slots A) (hs : Proper s) (h : A) (r d : ℚ)
    (ports : Option (List ℕ) × Option (List ℕ)) (hl : s .leakage = .selective h r d ports) (hp : ports ≠ (none, none)) :
    (loadDevice path dev (saveDevice (fun _ => none) path s fs).2).2 .leakage = .selective h r d (none, none) ∧
    (loadDevice path dev (saveDevice (fun _ => none) path s fs).2).2 ≠ s := by
  have h1 := (C144_device_partial fs path hnew s dev hs []).2
  rw [show run (saveDevice (fun _ => none) path s fs).2 [] = (saveDevice (fun _ => none) path s fs).2 from rfl] at h1
  rw [h1]
  have h2 : withoutPorts (s .leakage) = .selective h r d (none, none) := by rw [hl]; rfl
  refine ⟨h2, fun heq => hp ?_⟩
  have h3 := congrFun heq .leakage
  dsimp only at h3
  rw [h2, hl] at h3
  injection h3 with _ _ _ h3
  exact h3.symm

/-- C144 fails for files that exist: saving again is accepted, but the file keeps the calibrations that were saved first, however
often it is done. -/
theorem C144_again_fails (fs : Disk A) (path : String) (hnew : fs path = none) (first last dev : Slots A) (hf : Proper first)
    (hl : Proper last) (ops : List (Op A)) (hne : ∃ k, withoutPorts (first k) ≠ withoutPorts (last k)) :
    let before := run (saveDevice (fun _ => none) path first fs).2 ops
    (saveDevice (fun _ => none) path last before).1 = .ok () ∧
    loadDevice path dev (saveDevice (fun _ => none) path last before).2 = (.ok (), fun k => withoutPorts (first k)) ∧
    (loadDevice path dev (saveDevice (fun _ => none) path last before).2).2 ≠ fun k => withoutPorts (last k) := by
  intro before
  have h := saveDevice_new path first hf fs (fun k => by unfold atRoot opened; rw [hnew]; rfl)
  have hb : ∀ k, atRoot before path k = some (stored (first k)) := fun k => (run_kept _ ops path k _).1 (h.2 k)
  have hw : ∀ ks, writeAll (fun _ => none) last ks (opened before path).root = (.ok (), (opened before path).root) := by
    intro ks
    induction ks with
    | nil => rfl
    | cons k ks ih =>
      have : writeObject none (last k) k (opened before path).root = (.ok (), (opened before path).root) := by
        have hk := hb k
        unfold atRoot at hk
        unfold writeObject
        rw [if_neg (by simp [(hl k).2.1]), if_pos (by rw [hk]; rfl)]
      unfold writeAll
      rw [this]
      exact ih
  have h2 := loadDevice_stored path first dev hf _ fun k => (run_kept before [.device path last fun _ => none] path k _).1 (hb k)
  have h2' : loadDevice path dev (saveDevice (fun _ => none) path last before).2 = (.ok (), fun k => withoutPorts (first k)) := h2
  refine ⟨?_, h2', ?_⟩
  · unfold saveDevice
    dsimp only
    rw [hw]
  · rw [h2']
    obtain ⟨k, hk⟩ := hne
    exact fun heq => hk (congrFun heq k)

theorem readObject_untyped (expected : Cls → Bool) (k : Kind) (g : Camp A) (hg : g k = some ⟨none, [], []⟩) :
    readObject expected k g = .error .runtime := by
  unfold readObject
  rw [hg]

theorem loadDevice_untyped (fs : Disk A) (path : String) (dev : Slots A) (k : Kind) (h : atRoot fs path k = some ⟨none, [], []⟩) :
    ∃ e, loadDevice path dev fs = (.error (.py e), dev) := by
  unfold loadDevice
  cases hf : fs path with
  | none =>
    unfold atRoot opened at h
    rw [hf] at h
    simp at h
  | some f =>
    have hk : f.root k = some ⟨none, [], []⟩ := by
      unfold atRoot opened at h
      rwa [hf] at h
    dsimp only
    cases hl : readObject (fun c => decide (c.kind = .leakage)) .leakage f.root with
    | error e => exact ⟨e, rfl⟩
    | ok l =>
      dsimp only
      cases hd : readObject (fun c => decide (c.kind = .delay)) .delay f.root with
      | error e => exact ⟨e, rfl⟩
      | ok d =>
        dsimp only
        cases ha : readObject (fun c => decide (c.kind = .antenna)) .antenna f.root with
        | error e => exact ⟨e, rfl⟩
        | ok a =>
          cases k with
          | leakage => rw [readObject_untyped _ _ _ hk] at hl; cases hl
          | delay => rw [readObject_untyped _ _ _ hk] at hd; cases hd
          | antenna => rw [readObject_untyped _ _ _ hk] at ha; cases ha

/-- C144 fails if storage fails while a new file is written, at whichever calibration: from then on the file cannot be loaded,
whatever is saved to it, and devices keep the calibrations they have. -/
theorem C144_interrupted_fails (fs : Disk A) (path : String) (hnew : fs path = none) (s dev : Slots A) (hs : Proper s)
    (fault : Kind → Option PyErr) (hfault : ∃ k, fault k ≠ none) (ops : List (Op A)) :
    (∃ e, (saveDevice fault path s fs).1 = .error e) ∧
    ∃ e, loadDevice path dev (run (saveDevice fault path s fs).2 ops) = (.error (.py e), dev) := by
  have hroot : (opened fs path).root = fun _ => none := by unfold opened; rw [hnew]; rfl
  have key : ∃ e k, (writeAll fault s [.leakage, .delay, .antenna] fun _ => none).1 = .error e ∧
      (writeAll fault s [.leakage, .delay, .antenna] fun _ => none).2 k = some ⟨none, [], []⟩ := by
    have hrl := (hs .leakage).2.1
    have hrd := (hs .delay).2.1
    have hra := (hs .antenna).2.1
    cases hl : fault .leakage with
    | some e =>
      refine ⟨e, .leakage, ?_, ?_⟩ <;> simp [writeAll, writeObject, hl, hrl]
    | none =>
      cases hd : fault .delay with
      | some e =>
        refine ⟨e, .delay, ?_, ?_⟩ <;> simp [writeAll, writeObject, hl, hrl, hd, hrd]
      | none =>
        cases ha : fault .antenna with
        | some e =>
          refine ⟨e, .antenna, ?_, ?_⟩ <;> simp [writeAll, writeObject, hl, hrl, hd, hrd, ha, hra]
        | none =>
          obtain ⟨k, hk⟩ := hfault
          cases k
          · exact absurd hl hk
          · exact absurd hd hk
          · exact absurd ha hk
  obtain ⟨e, k, h1, h2⟩ := key
  refine ⟨⟨e, ?_⟩, ?_⟩
  · unfold saveDevice
    dsimp only
    rw [hroot, h1]
  · refine loadDevice_untyped _ path dev k ((run_kept _ ops path k _).1 ?_)
    unfold atRoot saveDevice
    dsimp only
    rw [opened_update, if_pos rfl]
    dsimp only
    rw [hroot, h2]

/-- C144 fails if a device has a calibration of a class its user defined: saving raises `RuntimeError`, but the calibrations before
it are in the file, and are mixed with those of a device saved there later. -/
theorem C144_mixed_fails (fs : Disk A) (path : String) (hnew : fs path = none) (s later dev : Slots A) (n : ℕ)
    (hl : (s .leakage).cls.kind = .leakage ∧ (s .leakage).cls.registered = true ∧ Valid (s .leakage))
    (hd : (s .delay).cls.kind = .delay ∧ (s .delay).cls.registered = true ∧ Valid (s .delay))
    (ha : s .antenna = .own .antenna n) (hlater : Proper later) :
    let before := saveDevice (fun _ => none) path s fs
    before.1 = .error .runtime ∧ (saveDevice (fun _ => none) path later before.2).1 = .ok () ∧
    loadDevice path dev (saveDevice (fun _ => none) path later before.2).2 =
      (.ok (), Function.update (fun k => withoutPorts (s k)) .antenna (withoutPorts (later .antenna))) := by
  intro before
  have hroot : (opened fs path).root = fun _ => none := by unfold opened; rw [hnew]; rfl
  have hra : (s .antenna).cls.registered = false := by rw [ha]; rfl
  have h1 : writeAll (fun _ => none) s [.leakage, .delay, .antenna] (fun _ => none) =
      (.error .runtime, Function.update (Function.update (fun _ => none : Camp A) .leakage (some (stored (s .leakage)))) .delay
        (some (stored (s .delay)))) := by
    simp [writeAll, writeObject, hl.2.1, hd.2.1, hra, stored]
  have hb1 : before.1 = .error .runtime := by
    show (saveDevice _ path s fs).1 = _
    unfold saveDevice
    dsimp only
    rw [hroot, h1]
  have hb2 : (opened before.2 path).root = Function.update (Function.update (fun _ => none : Camp A) .leakage
      (some (stored (s .leakage)))) .delay (some (stored (s .delay))) := by
    show (opened (saveDevice _ path s fs).2 path).root = _
    unfold saveDevice
    dsimp only
    rw [opened_update, if_pos rfl]
    dsimp only
    rw [hroot, h1]
  have h2 : writeAll (fun _ => none) later [.leakage, .delay, .antenna] (opened before.2 path).root =
      (.ok (), Function.update (opened before.2 path).root .antenna (some (stored (later .antenna)))) := by
    rw [hb2]
    simp [writeAll, writeObject, (hlater .leakage).2.1, (hlater .delay).2.1, (hlater .antenna).2.1, stored, Function.update]
  have h3 : ∀ k, atRoot (saveDevice (fun _ => none) path later before.2).2 path k =
      some (stored (Function.update s .antenna (later .antenna) k)) := by
    intro k
    unfold atRoot saveDevice
    dsimp only
    rw [opened_update, if_pos rfl]
    dsimp only
    rw [h2, hb2]
    cases k <;> simp [Function.update]
  have hp : Proper (Function.update s .antenna (later .antenna)) := by
    intro k
    cases k
    · simpa [Function.update] using hl
    · simpa [Function.update] using hd
    · simpa [Function.update] using hlater .antenna
  refine ⟨hb1, ?_, ?_⟩
  · show (saveDevice _ path later before.2).1 = _
    unfold saveDevice
    dsimp only
    rw [h2]
  · rw [loadDevice_stored path _ dev hp _ h3]
    refine Prod.ext rfl (funext fun k => ?_)
    cases k <;> simp [Function.update]

/-- C144: loading either raises and leaves all calibrations of a device as they are, or assigns every calibration the file has and
leaves the others; nothing is assigned by halves. -/
theorem C144_atomic (fs : Disk A) (path : String) (dev : Slots A) :
    (∃ e, loadDevice path dev fs = (.error e, dev)) ∨
    ∃ f, fs path = some f ∧ (loadDevice path dev fs).1 = .ok () ∧
      ∀ k, (f.root k = none ∧ (loadDevice path dev fs).2 k = dev k) ∨
        ∃ g c x, f.root k = some g ∧ g.type = some c ∧ c.kind = k ∧ deserialize c g = .ok x ∧ (loadDevice path dev fs).2 k = x := by
  unfold loadDevice
  cases hf : fs path with
  | none => exact Or.inl ⟨_, rfl⟩
  | some f =>
    have hread : ∀ (k : Kind) (o : Option (Cal A)), readObject (fun c => decide (c.kind = k)) k f.root = .ok o →
        (f.root k = none ∧ o = none) ∨
        ∃ g c x, f.root k = some g ∧ g.type = some c ∧ c.kind = k ∧ deserialize c g = .ok x ∧ o = some x := by
      intro k o h
      unfold readObject at h
      cases hg : f.root k with
      | none =>
        rw [hg] at h
        injection h with h
        exact Or.inl ⟨rfl, h.symm⟩
      | some g =>
        rw [hg] at h
        dsimp only at h
        cases ht : g.type with
        | none => rw [ht] at h; cases h
        | some c =>
          rw [ht] at h
          dsimp only at h
          by_cases h1 : (!c.registered) = true
          · rw [if_pos h1] at h; cases h
          rw [if_neg h1] at h
          by_cases h2 : (!decide (c.kind = k)) = true
          · rw [if_pos h2] at h; cases h
          rw [if_neg h2] at h
          cases hx : deserialize c g with
          | error e => rw [hx] at h; cases h
          | ok x =>
            rw [hx] at h
            injection h with h
            exact Or.inr ⟨g, c, x, rfl, ht, by simpa using h2, hx, h.symm⟩
    dsimp only
    cases hl : readObject (fun c => decide (c.kind = .leakage)) .leakage f.root with
    | error e => exact Or.inl ⟨_, rfl⟩
    | ok l =>
      dsimp only
      cases hd : readObject (fun c => decide (c.kind = .delay)) .delay f.root with
      | error e => exact Or.inl ⟨_, rfl⟩
      | ok d =>
        dsimp only
        cases ha : readObject (fun c => decide (c.kind = .antenna)) .antenna f.root with
        | error e => exact Or.inl ⟨_, rfl⟩
        | ok a =>
          refine Or.inr ⟨f, rfl, rfl, fun k => ?_⟩
          have hfin : ∀ k, apply (apply (apply dev .leakage l) .delay d) .antenna a k =
              (match k with | .leakage => l | .delay => d | .antenna => a).getD (dev k) := by
            intro k
            cases k <;> cases l <;> cases d <;> cases a <;> simp [apply, Function.update]
          dsimp only
          rw [hfin k]
          have hcase : readObject (fun c => decide (c.kind = k)) k f.root =
              .ok (match k with | .leakage => l | .delay => d | .antenna => a) := by
            cases k
            · exact hl
            · exact hd
            · exact ha
          rcases hread k _ hcase with ⟨h1, h2⟩ | ⟨g, c, x, h1, h2, h3, h4, h5⟩
          · exact Or.inl ⟨h1, by rw [h2]; rfl⟩
          · exact Or.inr ⟨g, c, x, h1, h2, h3, h4, by rw [h5]; rfl⟩

/-- C144: a calibration saved on its own to a new file is loaded by its class, and by its base class, but for ports. -/
theorem C144_single_partial (fs : Disk A) (path : String) (hnew : fs path = none) (c : Cal A) (hr : c.cls.registered = true)
    (hv : Valid c) (expected : Cls → Bool) (he : expected c.cls = true) (ops : List (Op A)) :
    (saveOne none path c fs).1 = .ok () ∧
    loadOne path expected c.cls.kind (run (saveOne none path c fs).2 ops) = .ok (withoutPorts c) := by
  have hcamp : (opened fs path).campaign.getD (fun _ => none) = fun _ => none := by unfold opened; rw [hnew]; rfl
  have hw := writeObject_new c hr c.cls.kind (fun _ => none) rfl
  have h1 : inCampaign (saveOne none path c fs).2 path c.cls.kind = some (stored c) := by
    unfold inCampaign saveOne
    dsimp only
    rw [opened_update, if_pos rfl]
    dsimp only
    rw [hcamp, hw]
    simp
  have h2 := (run_kept _ ops path _ _).2 h1
  refine ⟨?_, ?_⟩
  · unfold saveOne
    dsimp only
    rw [hcamp, hw]
  · generalize run (saveOne none path c fs).2 ops = fs' at h2
    unfold inCampaign opened at h2
    unfold loadOne
    cases hf : fs' path with
    | none => rw [hf] at h2; simp at h2
    | some f =>
      rw [hf] at h2
      dsimp only [Option.getD] at h2 ⊢
      cases hc : f.campaign with
      | none => rw [hc] at h2; simp at h2
      | some g =>
        rw [hc] at h2
        dsimp only at h2 ⊢
        rw [readObject_stored c hv hr expected he _ g h2]

/-- C144: loading a calibration as another class raises `RuntimeError`. -/
theorem C144_class (fs : Disk A) (path : String) (hnew : fs path = none) (c : Cal A) (hr : c.cls.registered = true)
    (expected : Cls → Bool) (he : expected c.cls = false) (k : Kind) :
    loadOne path expected k (saveOne none path c fs).2 = .error (.py .runtime) := by
  have hcamp : (opened fs path).campaign.getD (fun _ => none) = fun _ => none := by unfold opened; rw [hnew]; rfl
  have hw := writeObject_new c hr c.cls.kind (fun _ => none) rfl
  unfold loadOne saveOne
  dsimp only
  rw [Function.update_self]
  dsimp only
  rw [hcamp, hw]
  dsimp only
  by_cases hk : k = c.cls.kind
  · subst hk
    have : readObject expected c.cls.kind (Function.update (fun _ => none) c.cls.kind (some (stored c))) = .error .runtime := by
      unfold readObject
      rw [Function.update_self]
      dsimp only [stored]
      rw [if_neg (by simp [hr]), if_pos (by simp [he])]
    rw [this]
  · have : readObject expected k (Function.update (fun _ => none) c.cls.kind (some (stored c))) = .ok none := by
      unfold readObject
      rw [Function.update_of_ne hk]
    rw [this]

/-- C144 fails across the two ways to save: devices do not find calibrations that were saved on their own, without any error, and
calibrations saved by devices cannot be loaded on their own. -/
theorem C144_campaign_fails (fs : Disk A) (path : String) (hnew : fs path = none) (c : Cal A) (s dev : Slots A)
    (expected : Cls → Bool) (k : Kind) (fault : Kind → Option PyErr) (fault' : Option PyErr) :
    loadDevice path dev (saveOne fault' path c fs).2 = (.ok (), dev) ∧
    loadOne path expected k (saveDevice fault path s fs).2 = .error (.py .runtime) := by
  constructor
  · unfold loadDevice saveOne
    dsimp only
    rw [Function.update_self]
    have hroot : (opened fs path).root = fun _ => none := by unfold opened; rw [hnew]; rfl
    dsimp only
    rw [hroot]
    rfl
  · unfold loadOne saveDevice
    dsimp only
    rw [Function.update_self]
    have hcamp : (opened fs path).campaign = none := by unfold opened; rw [hnew]; rfl
    dsimp only
    rw [hcamp]

/-- C144: files that are not there raise, and saving touches no other file. -/
theorem C144_files (fs : Disk A) (path other : String) (hne : other ≠ path) (s dev : Slots A) (c : Cal A)
    (fault : Kind → Option PyErr) (fault' : Option PyErr) (expected : Cls → Bool) (k : Kind) :
    (saveDevice fault path s fs).2 other = fs other ∧ (saveOne fault' path c fs).2 other = fs other ∧
    (fs path = none → loadDevice path dev fs = (.error .noFile, dev) ∧ loadOne path expected k fs = .error .noFile) := by
  refine ⟨Function.update_of_ne hne _ _, Function.update_of_ne hne _ _, fun h => ⟨?_, ?_⟩⟩
  · unfold loadDevice; rw [h]
  · unfold loadOne; rw [h]

/-! ## Cases -/

/-- A device with all calibrations, its leakage calibrated on one port. -/
def calibrated (x : ℕ) : Slots ℕ
  | .leakage => .selective x 1000 0 (none, some [1])
  | .delay => .static (x / 100)
  | .antenna => .scalar x x

theorem calibrated_proper (x : ℕ) : Proper (calibrated x) := by
  intro k
  cases k <;> simp [calibrated, Cal.cls, Cls.kind, Cls.registered, Valid]

example : loadDevice "c.h5" (fun k => .own k 0) (run (saveDevice (fun _ => none) "c.h5" (calibrated 1) fun _ => none).2
    [.device "d.h5" (calibrated 2) fun _ => none]) = (.ok (), fun k => withoutPorts (calibrated 1 k)) :=
  (C144_device_partial _ "c.h5" rfl (calibrated 1) _ (calibrated_proper 1) _).2

/-- Saved, changed and saved again: the first is loaded. -/
example : loadDevice "c.h5" (fun k => .own k 0) (saveDevice (fun _ => none) "c.h5" (calibrated 2)
    (saveDevice (fun _ => none) "c.h5" (calibrated 1) fun _ => none).2).2 = (.ok (), fun k => withoutPorts (calibrated 1 k)) :=
  (C144_again_fails (fun _ => none) "c.h5" rfl (calibrated 1) (calibrated 2) (fun k => .own k 0) (calibrated_proper 1)
    (calibrated_proper 2) [] ⟨.antenna, by simp [calibrated, withoutPorts]⟩).2.1

/-- The disk was full when the delay was written, and saved again afterwards. -/
example : ∃ e, loadDevice "c.h5" (calibrated 3) (run (saveDevice (fun k => if k = .delay then some .runtime else none) "c.h5"
    (calibrated 1) fun _ => none).2 [.device "c.h5" (calibrated 1) fun _ => none]) = (.error (.py e), calibrated 3) :=
  (C144_interrupted_fails (fun _ => none) "c.h5" rfl (calibrated 1) (calibrated 3) (calibrated_proper 1) _ ⟨.delay, by simp⟩ _).2

/-- A device whose antennas are calibrated by a class of its user. -/
def foreign (x : ℕ) : Slots ℕ
  | .leakage => calibrated x .leakage
  | .delay => calibrated x .delay
  | .antenna => .own .antenna 0

example : (loadDevice "c.h5" (calibrated 3) (saveDevice (fun _ => none) "c.h5" (calibrated 2)
    (saveDevice (fun _ => none) "c.h5" (foreign 1) fun _ => none).2).2).1 = .ok () :=
  congrArg Prod.fst (C144_mixed_fails (fun _ => none) "c.h5" rfl (foreign 1) (calibrated 2) (calibrated 3) 0
    (calibrated_proper 1 .leakage) (calibrated_proper 1 .delay) rfl (calibrated_proper 2)).2.2

example : loadOne "c.h5" (fun c => c.kind = .delay) .delay (saveOne none "c.h5" (.static 2 : Cal ℕ) fun _ => none).2 = .ok (.static 2) :=
  (C144_single_partial (fun _ => none) "c.h5" rfl (.static 2 : Cal ℕ) rfl trivial (fun c => c.kind = .delay) rfl []).2

end Verif.HwCalibrationFiles
