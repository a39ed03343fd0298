import Verif.Np
import Mathlib.Data.List.Basic
import Mathlib.Tactic.Common

/-!
# C35: recording and replaying drops

`core/scenario.py` 130-157, 331-350, 368-566, 763-780, 817-854 and `simulation/scenario.py` 316-355,
731-745.  Files are maps from campaigns to the recorded drops; a drop whose serialization was
interrupted by an exception leaves a group without type (`none`).  The contents of the recorded drops
are the subject of `Verif.Sim.RecordHdf`.

Not modelled: the scenario state stored beside the drops, names of campaigns which collide with the
groups of a recording without campaign (`drops`, `arrays`), other programs using the file, and files
opened for writing and reading at once.
-/

namespace Verif.Recording

/-- `ScenarioMode`. -/
inductive Mode
  | default
  | record
  | replay
  deriving DecidableEq

/-- A campaign name, `None` for the file itself. -/
abbrev Camp := Option String

/-- Recorded drops per file and campaign; `none` if the file, or the campaign in it, does not exist. -/
abbrev Files (D : Type) := Nat → Option (Camp → Option (List (Option D)))

/-- A scenario and the file system. -/
structure Rec (D : Type) where
  mode : Mode
  devices : List Nat
  links : List Nat
  serial : Option (Nat × Camp)
  deser : Option (List (Option D))
  replayFile : Option Nat
  counter : Int
  campaign : Camp
  files : Files D

variable {D : Type}

/-- A new scenario, `core/scenario.py` 102-118. -/
def Rec.new (files : Files D) : Rec D :=
  ⟨.default, [], [], none, none, none, 0, some "default", files⟩

/-- Drops of a campaign. -/
def slots (files : Files D) (f : Nat) (c : Camp) : Option (List (Option D)) :=
  match files f with
  | none => none
  | some g => g c

/-- Replaces the drops of a campaign. -/
def putSlots (files : Files D) (f : Nat) (c : Camp) (l : List (Option D)) : Files D :=
  fun f' => if f' = f then
      some (fun c' => if c' = c then some l else match files f with
        | none => none
        | some g => g c')
    else files f'

/-- `add_device`, `core/scenario.py` 130-157. -/
def addDevice (s : Rec D) (d : Nat) : Except PyErr Unit × Rec D :=
  if d ∈ s.devices then (.error .value, s)
  else if s.mode ≠ .default then (.error .runtime, s)
  else (.ok (), { s with devices := s.devices ++ [d] })

/-- `SimulationScenario.set_channel`, `simulation/scenario.py` 316-355, as far as modes are concerned:
the link is changed in every mode.  See `Verif.Sim.Links` for the rest. -/
def setLink (s : Rec D) (x : Nat) : Except PyErr Unit × Rec D :=
  (.ok (), { s with links := s.links ++ [x] })

/-- The `campaign` setter, `core/scenario.py` 331-350. -/
def setCampaign (s : Rec D) (v : Camp) : Except PyErr Unit × Rec D :=
  if v = some "state" then (.error .value, s)
  else if v = s.campaign then (.ok (), s)
  else if s.mode = .replay then (.error .notImplemented, { s with counter := 0 })
  else (.ok (), { s with
    counter := 0
    campaign := v })

/-- `record`, `core/scenario.py` 368-439.  `stateOk` tells if the scenario's state can be serialized.
The file is opened in append mode and the campaign's group created if there is none. -/
def record (s : Rec D) (f : Nat) (c : Camp) (overwrite stateOk : Bool) : Except PyErr Unit × Rec D :=
  if s.mode ≠ .default then (.error .runtime, s)
  else
    let files1 : Files D := if overwrite then fun f' => if f' = f then none else s.files f' else s.files
    let s1 := { s with
      files := putSlots files1 f c ((slots files1 f c).getD [])
      serial := some (f, c) }
    if ¬ stateOk then (.error .runtime, s1)
    else setCampaign { s1 with
      mode := .record
      counter := 0 } c

/-- `stop`, `core/scenario.py` 550-566. -/
def stop (s : Rec D) : Rec D :=
  let s1 := if s.serial.isSome then { s with
      serial := none
      counter := 0 } else s
  let s2 := if s1.deser.isSome then { s1 with
      deser := none
      counter := 0 } else s1
  { s2 with mode := .default }

/-- `HDFDeserializationProcess.New`, `core/factory.py` 1043-1053, and `sequence_length`: the drops of a
campaign.  A recording without campaign may hold no drops. -/
def openCampaign (files : Files D) (f : Nat) (c : Camp) : Except PyErr (List (Option D)) :=
  match files f with
  | none => .error .runtime
  | some g => match g c with
    | some l => .ok l
    | none => match c with
      | none => .ok []
      | some _ => .error .runtime

/-- `replay`, `core/scenario.py` 441-505. -/
def replay (s : Rec D) (file : Option Nat) (c : Camp) (offset : Int) : Except PyErr Int × Rec D :=
  match (match file with
    | some f => some f
    | none => s.replayFile) with
  | none => (.error .value, s)
  | some f => match openCampaign s.files f c with
    | .error e => (.error e, s)
    | .ok l =>
      if offset ≥ l.length then (.error .value, s)
      else (.ok (l.length - offset), { stop s with
        deser := some l
        replayFile := some f
        counter := offset
        campaign := c
        mode := .replay })

/-- Reading of drop number `i` in replay mode, `core/factory.py` 1193-1220 and `[0]`,
`core/scenario.py` 829-831: beyond the end the sequence is empty, names of negative numbers do not
exist, a group without type cannot be read. -/
def readSlot (l : List (Option D)) (i : Int) : Except PyErr D :=
  if i < 0 then .error .index
  else match l[i.toNat]? with
    | none => .error .index
    | some none => .error .runtime
    | some (some d) => .ok d

/-- `drop`, `core/scenario.py` 817-854.  `gen` is the result of `_drop`, `ser` tells if its
serialization succeeds, `post` what the operators' processing of a replayed drop raises. -/
def drop (s : Rec D) (gen : Except PyErr D) (ser : Bool) (post : Option PyErr) : Except PyErr D × Rec D :=
  if s.mode = .replay then
    match s.deser with
    | none => (.error .runtime, s)
    | some l => match readSlot l s.counter with
      | .error e => (.error e, s)
      | .ok d => match post with
        | none => (.ok d, { s with counter := s.counter + 1 })
        | some e => (.error e, { s with counter := s.counter + 1 })
  else match gen with
    | .error e => (.error e, s)
    | .ok d =>
      if s.mode = .record then
        match s.serial with
        | none => (.error .attribute, s)
        | some (f, c) =>
          if ser then (.ok d, { s with
            files := putSlots s.files f c ((slots s.files f c).getD [] ++ [some d])
            counter := s.counter + 1 })
          else (.error .runtime, { s with
            files := putSlots s.files f c ((slots s.files f c).getD [] ++ [none]) })
      else (.ok d, s)

/-- `SimulationScenario.drop` with a time, `simulation/scenario.py` 731-745. -/
def dropAt (s : Rec D) (gen : Except PyErr D) : Except PyErr D × Rec D := (gen, s)

/-- `num_drops`, `core/scenario.py` 763-780. -/
def numDrops (s : Rec D) : Int := if s.mode = .default then 0 else s.counter

/-- Calls of the scenario's methods. -/
inductive RecOp (D : Type)
  | addDevice (d : Nat)
  | setLink (x : Nat)
  | setCampaign (v : Camp)
  | record (f : Nat) (c : Camp) (overwrite stateOk : Bool)
  | replay (file : Option Nat) (c : Camp) (offset : Int)
  | stop
  | drop (gen : Except PyErr D) (ser : Bool) (post : Option PyErr)
  | dropAt (gen : Except PyErr D)

/-- State after a call. -/
def RecOp.run (s : Rec D) : RecOp D → Rec D
  | .addDevice d => (Verif.Recording.addDevice s d).2
  | .setLink x => (Verif.Recording.setLink s x).2
  | .setCampaign v => (Verif.Recording.setCampaign s v).2
  | .record f c o t => (Verif.Recording.record s f c o t).2
  | .replay f c k => (Verif.Recording.replay s f c k).2
  | .stop => Verif.Recording.stop s
  | .drop g t p => (Verif.Recording.drop s g t p).2
  | .dropAt g => (Verif.Recording.dropAt s g).2

/-- Results of dropping `n` times in a row while replaying. -/
def dropN (post : Option PyErr) : Nat → Rec D → List (Except PyErr D) × Rec D
  | 0, s => ([], s)
  | n + 1, s =>
    let r := drop s (.error .runtime) true post
    let rs := dropN post n r.2
    (r.1 :: rs.1, rs.2)

/-! ### Properties -/

/-- What a call adds to the recording. -/
def RecOp.recorded : RecOp D → List (Option D)
  | .drop (.ok d) ser _ => if ser then [some d] else [none]
  | _ => []

/-- Calls which end a recording. -/
def RecOp.ends : RecOp D → Prop
  | .stop => True
  | .replay _ _ _ => True
  | _ => False

theorem slots_put (files : Files D) (f : Nat) (c : Camp) (l : List (Option D)) :
    slots (putSlots files f c l) f c = some l := by
  simp [slots, putSlots]

theorem run_recording {s : Rec D} {f : Nat} {c : Camp} {l : List (Option D)} (hm : s.mode = .record)
    (hs : s.serial = some (f, c)) (hl : slots s.files f c = some l) (op : RecOp D) (he : ¬ op.ends) :
    (op.run s).mode = .record ∧ (op.run s).serial = some (f, c) ∧
      slots (op.run s).files f c = some (l ++ op.recorded) ∧ (op.run s).devices = s.devices := by
  cases op with
  | addDevice d =>
    simp only [RecOp.run, Verif.Recording.addDevice, RecOp.recorded, List.append_nil]
    split
    · exact ⟨hm, hs, hl, rfl⟩
    · rw [if_pos (by rw [hm]; decide)]; exact ⟨hm, hs, hl, rfl⟩
  | setLink x => exact ⟨hm, hs, by simpa [RecOp.recorded, RecOp.run, Verif.Recording.setLink] using hl, rfl⟩
  | setCampaign v =>
    simp only [RecOp.run, Verif.Recording.setCampaign, RecOp.recorded, List.append_nil]
    split
    · exact ⟨hm, hs, hl, rfl⟩
    split
    · exact ⟨hm, hs, hl, rfl⟩
    rw [if_neg (by rw [hm]; decide)]
    exact ⟨hm, hs, hl, rfl⟩
  | record f' c' o t =>
    simp only [RecOp.run, Verif.Recording.record, RecOp.recorded, List.append_nil]
    rw [if_pos (by rw [hm]; decide)]
    exact ⟨hm, hs, hl, rfl⟩
  | replay f' c' k => exact absurd trivial he
  | stop => exact absurd trivial he
  | drop g t p =>
    simp only [RecOp.run, Verif.Recording.drop]
    rw [if_neg (by rw [hm]; decide)]
    cases g with
    | error e => exact ⟨hm, hs, by simpa [RecOp.recorded] using hl, rfl⟩
    | ok d =>
      dsimp only
      rw [if_pos hm, hs]
      dsimp only
      rw [hl]
      cases t with
      | true => exact ⟨hm, rfl, by simp [slots_put, RecOp.recorded], rfl⟩
      | false => exact ⟨hm, rfl, by simp [slots_put, RecOp.recorded], rfl⟩
  | dropAt g => exact ⟨hm, hs, by simpa [RecOp.recorded, RecOp.run, Verif.Recording.dropAt] using hl, rfl⟩

theorem history_recording {s : Rec D} {f : Nat} {c : Camp} {l : List (Option D)} (ops : List (RecOp D))
    (hm : s.mode = .record) (hs : s.serial = some (f, c)) (hl : slots s.files f c = some l)
    (he : ∀ op ∈ ops, ¬ op.ends) :
    (ops.foldl RecOp.run s).mode = .record ∧ (ops.foldl RecOp.run s).serial = some (f, c) ∧
      slots (ops.foldl RecOp.run s).files f c = some (l ++ ops.flatMap RecOp.recorded) ∧
      (ops.foldl RecOp.run s).devices = s.devices := by
  induction ops generalizing s l with
  | nil => exact ⟨hm, hs, by simpa using hl, rfl⟩
  | cons op ops ih =>
    obtain ⟨h1, h2, h3, h4⟩ := run_recording hm hs hl op (he op List.mem_cons_self)
    obtain ⟨k1, k2, k3, k4⟩ := ih h1 h2 h3 (fun o ho => he o (List.mem_cons_of_mem _ ho))
    exact ⟨k1, k2, by rw [List.flatMap_cons, ← List.append_assoc]; exact k3, k4.trans h4⟩

theorem stop_files (s : Rec D) : (stop s).files = s.files := by
  unfold stop
  dsimp only
  split <;> split <;> rfl

/-- **C35** (stopping): `stop` returns to default mode from every state; devices and recorded drops
stay as they are, and devices can be added again. -/
theorem C35_stop (s : Rec D) : (stop s).mode = .default ∧ (stop s).devices = s.devices ∧
    (stop s).files = s.files ∧ ∀ d, d ∉ s.devices → (addDevice (stop s) d).1 = .ok () := by
  have hd : (stop s).devices = s.devices := by
    unfold stop
    dsimp only
    split <;> split <;> rfl
  have hm : (stop s).mode = .default := rfl
  refine ⟨hm, hd, stop_files s, ?_⟩
  intro d h
  unfold addDevice
  rw [if_neg (by rw [hd]; exact h), if_neg (by rw [hm]; decide)]

/-- **C35** (frozen scenario): while recording or replaying, adding devices and starting a recording
are refused and change nothing. -/
theorem C35_frozen (s : Rec D) (hm : s.mode ≠ .default) (d f : Nat) (c : Camp) (o t : Bool) :
    (∃ e, addDevice s d = (.error e, s)) ∧ record s f c o t = (.error .runtime, s) := by
  constructor
  · unfold addDevice
    split
    · exact ⟨_, rfl⟩
    · exact ⟨_, rfl⟩
  · unfold record
    rw [if_pos hm]

/-- Slots found by `record`. -/
def found (s : Rec D) (f : Nat) (c : Camp) (overwrite : Bool) : List (Option D) :=
  if overwrite then [] else (slots s.files f c).getD []

theorem record_ok {s : Rec D} (hm : s.mode = .default) (f : Nat) (c : Camp) (o : Bool)
    (hc : c ≠ some "state") :
    (record s f c o true).1 = .ok () ∧ (record s f c o true).2.mode = .record ∧
    (record s f c o true).2.serial = some (f, c) ∧
    slots (record s f c o true).2.files f c = some (found s f c o) ∧
    (record s f c o true).2.devices = s.devices := by
  unfold record
  rw [if_neg (by rw [hm]; decide)]
  simp only [not_true_eq_false, if_false]
  unfold setCampaign
  rw [if_neg hc]
  cases o with
  | true =>
    simp only [if_true]
    split
    · exact ⟨rfl, rfl, rfl, by rw [slots_put]; simp [slots, found], rfl⟩
    · rw [if_neg (by decide)]
      exact ⟨rfl, rfl, rfl, by dsimp only; rw [slots_put]; simp [slots, found], rfl⟩
  | false =>
    simp only [Bool.false_eq_true, if_false]
    split
    · exact ⟨rfl, rfl, rfl, by rw [slots_put]; simp [found], rfl⟩
    · rw [if_neg (by decide)]
      exact ⟨rfl, rfl, rfl, by dsimp only; rw [slots_put]; simp [found], rfl⟩

theorem openCampaign_of_slots {files : Files D} {f : Nat} {c : Camp} {l : List (Option D)}
    (h : slots files f c = some l) : openCampaign files f c = .ok l := by
  unfold slots at h
  unfold openCampaign
  cases hf : files f with
  | none => rw [hf] at h; cases h
  | some g =>
    rw [hf] at h
    dsimp only at h ⊢
    rw [h]

theorem dropN_replay {l : List (Option D)} (ds : List D) (hl : l = ds.map some) :
    ∀ (n k : Nat) (s : Rec D), s.mode = .replay → s.deser = some l → s.counter = k → k ≤ ds.length →
    n ≤ ds.length - k →
    (dropN none n s).1 = ((ds.drop k).take n).map Except.ok ∧
    (dropN none n s).2 = { s with counter := k + n } := by
  subst hl
  intro n
  induction n with
  | zero =>
    intro k s hm hd hc _ _
    refine ⟨by simp [dropN], ?_⟩
    simp only [dropN]
    cases s
    simp only at hc
    simp [hc]
  | succ n ih =>
    intro k s hm hd hc hk hn
    have hlt : k < ds.length := by omega
    have hr : readSlot (ds.map some) s.counter = .ok ds[k] := by
      unfold readSlot
      rw [hc, if_neg (by omega)]
      simp [hlt]
    have hdrop : drop s (.error .runtime) true none = (.ok ds[k], { s with counter := s.counter + 1 }) := by
      unfold drop
      rw [if_pos hm, hd]
      dsimp only
      rw [hr]
    obtain ⟨i1, i2⟩ := ih (k + 1) { s with counter := s.counter + 1 } hm hd
      (by dsimp only; rw [hc]; rfl) (by omega) (by omega)
    unfold dropN
    rw [hdrop]
    dsimp only
    rw [i1, i2]
    constructor
    · rw [List.drop_eq_getElem_cons hlt, List.take_succ_cons, List.map_cons]
    · congr 1
      push_cast; omega

/-- **C35** (round trip): start recording in default mode, do anything but stopping or replaying, stop,
and replay: if all drops were generated and serialized, `replay` announces the drops found in the file
and those recorded after them, less the offset, then dropping yields them in their order, and every
further drop raises and changes nothing.  The devices are those before the recording. -/
theorem C35_round_trip (s : Rec D) (hm : s.mode = .default) (f : Nat) (c : Camp) (o : Bool)
    (hc : c ≠ some "state") (old : List D) (hold : found s f c o = old.map some) (ops : List (RecOp D))
    (he : ∀ op ∈ ops, ¬ op.ends) (ds : List D) (hds : ops.flatMap RecOp.recorded = ds.map some)
    (k : Nat) (hk : k < (old ++ ds).length) (file : Option Nat)
    (hfile : file = some f) :
    let s' := replay (stop (ops.foldl RecOp.run (record s f c o true).2)) file c k
    s'.1 = .ok (((old ++ ds).length : Int) - k) ∧
    s'.2.mode = .replay ∧ s'.2.devices = s.devices ∧
    (∀ n, n ≤ (old ++ ds).length - k →
      (dropN none n s'.2).1 = (((old ++ ds).drop k).take n).map Except.ok) ∧
    ∀ gen ser post, drop (dropN none ((old ++ ds).length - k) s'.2).2 gen ser post =
      (.error .index, (dropN none ((old ++ ds).length - k) s'.2).2) := by
  intro s'
  obtain ⟨_, r2, r3, r4, r5⟩ := record_ok hm f c o hc
  obtain ⟨h1, h2, h3, h4⟩ := history_recording ops r2 r3 r4 he
  obtain ⟨p1, p2, p3, _⟩ := C35_stop (ops.foldl RecOp.run (record s f c o true).2)
  have hopen : openCampaign (stop (ops.foldl RecOp.run (record s f c o true).2)).files f c =
      .ok ((old ++ ds).map some) := by
    rw [p3]
    apply openCampaign_of_slots
    rw [h3, hold, hds, List.map_append]
  have e : s' = (.ok (((old ++ ds).length : Int) - k),
      { stop (stop (ops.foldl RecOp.run (record s f c o true).2)) with
        deser := some ((old ++ ds).map some)
        replayFile := some f
        counter := k
        campaign := c
        mode := .replay }) := by
    show replay _ file c k = _
    subst hfile
    unfold replay
    dsimp only
    rw [hopen]
    dsimp only
    rw [if_neg (by rw [List.length_map]; omega), List.length_map]
  obtain ⟨e1, e2⟩ : s'.1 = .ok (((old ++ ds).length : Int) - k) ∧ _ := ⟨by rw [e], congrArg Prod.snd e⟩
  have m1 : s'.2.mode = .replay := by rw [e2]
  have m2 : s'.2.deser = some ((old ++ ds).map some) := by rw [e2]
  have m3 : s'.2.counter = (k : Int) := by rw [e2]
  refine ⟨e1, m1, ?_, ?_, ?_⟩
  · rw [e2]
    exact (C35_stop _).2.1.trans (p2.trans (h4.trans r5))
  · intro n hn
    exact (dropN_replay (old ++ ds) rfl n k s'.2 m1 m2 m3 hk.le hn).1
  · intro gen ser post
    rw [(dropN_replay (old ++ ds) rfl _ k s'.2 m1 m2 m3 hk.le le_rfl).2]
    unfold drop
    dsimp only
    rw [if_pos m1, m2]
    dsimp only
    have : readSlot ((old ++ ds).map some) ((k : Int) + ((old ++ ds).length - k : Nat)) =
        .error .index := by
      unfold readSlot
      rw [if_neg (by omega)]
      rw [List.getElem?_eq_none (by rw [List.length_map]; omega)]
    rw [this]

/-- **C35** (appending): what a recording adds to an existing campaign comes after what is there, and
with `overwrite` the file starts anew; drops whose serialization was interrupted take a place too. -/
theorem C35_append (s : Rec D) (hm : s.mode = .default) (f : Nat) (c : Camp) (o : Bool)
    (hc : c ≠ some "state") (ops : List (RecOp D)) (he : ∀ op ∈ ops, ¬ op.ends) :
    slots (stop (ops.foldl RecOp.run (record s f c o true).2)).files f c =
      some ((if o then [] else (slots s.files f c).getD []) ++ ops.flatMap RecOp.recorded) := by
  obtain ⟨_, r2, r3, r4, _⟩ := record_ok hm f c o hc
  obtain ⟨_, _, h3, _⟩ := history_recording ops r2 r3 r4 he
  rw [stop_files, h3]
  rfl

/-- **C35** (offset): an offset beyond the recorded drops is refused, nothing changes. -/
theorem C35_offset_refused (s : Rec D) (f : Nat) (c : Camp) (l : List (Option D)) (k : Int)
    (hl : slots s.files f c = some l) (hk : (l.length : Int) ≤ k) :
    replay s (some f) c k = (.error .value, s) := by
  unfold replay
  dsimp only
  rw [openCampaign_of_slots hl]
  dsimp only
  rw [if_pos hk]

/-- Consistency of mode and processes. -/
structure Consistent (s : Rec D) : Prop where
  record : s.mode = .record → s.serial.isSome
  replay : s.mode = .replay → s.deser.isSome

theorem run_consistent {s : Rec D} (h : Consistent s) (op : RecOp D) : Consistent (op.run s) := by
  have camp : ∀ {s : Rec D} (_ : Consistent s) (v : Camp), Consistent (Verif.Recording.setCampaign s v).2 := by
    intro s h v
    unfold Verif.Recording.setCampaign
    split
    · exact h
    split
    · exact h
    split
    · exact ⟨h.1, h.2⟩
    · exact ⟨h.1, h.2⟩
  cases op with
  | addDevice d =>
    simp only [RecOp.run, Verif.Recording.addDevice]
    split
    · exact h
    split
    · exact h
    · exact ⟨h.1, h.2⟩
  | setLink x => exact ⟨h.1, h.2⟩
  | setCampaign v => exact camp h v
  | record f c o t =>
    simp only [RecOp.run, Verif.Recording.record]
    split
    · exact h
    rename_i hm
    split
    · refine ⟨fun _ => rfl, fun hr => ?_⟩
      have : s.mode = .replay := hr
      rw [this] at hm
      exact absurd (by decide) hm
    · apply camp
      exact ⟨fun _ => rfl, fun hr => by cases hr⟩
  | replay f c k =>
    simp only [RecOp.run, Verif.Recording.replay]
    split
    · exact h
    split
    · exact h
    split
    · exact h
    · exact ⟨fun hr => (by cases hr), fun _ => rfl⟩
  | stop => exact ⟨fun hr => (by cases hr), fun hr => (by cases hr)⟩
  | drop g t p =>
    simp only [RecOp.run, Verif.Recording.drop]
    split
    · split
      · exact h
      split
      · exact h
      split
      · exact ⟨h.1, h.2⟩
      · exact ⟨h.1, h.2⟩
    split
    · exact h
    split
    · split
      · exact h
      split
      · exact ⟨h.1, h.2⟩
      · exact ⟨h.1, h.2⟩
    · exact h
  | dropAt g => exact h

/-- **C35** (modes): in every reachable state a recording scenario has a file to write to and a
replaying one drops to read, so `drop` never fails for lack of a process. -/
theorem C35_modes (files : Files D) (ops : List (RecOp D)) :
    Consistent (ops.foldl RecOp.run (Rec.new files)) := by
  have : ∀ (ops : List (RecOp D)) (s : Rec D), Consistent s → Consistent (ops.foldl RecOp.run s) := by
    intro ops
    induction ops with
    | nil => exact fun _ h => h
    | cons op ops ih => exact fun s h => ih _ (run_consistent h op)
  exact this ops _ ⟨fun h => (by cases h), fun h => (by cases h)⟩

theorem record_counter {s : Rec D} (hm : s.mode = .default) (f : Nat) (c : Camp) (o : Bool)
    (hc : c ≠ some "state") : (record s f c o true).2.counter = 0 := by
  unfold record
  rw [if_neg (by rw [hm]; decide)]
  simp only [not_true_eq_false, if_false]
  unfold setCampaign
  rw [if_neg hc]
  cases o with
  | true =>
    simp only [if_true]
    split
    · rfl
    · rw [if_neg (by decide)]
  | false =>
    simp only [Bool.false_eq_true, if_false]
    split
    · rfl
    · rw [if_neg (by decide)]

theorem run_counter {s : Rec D} {f : Nat} {c : Camp} (hm : s.mode = .record)
    (hs : s.serial = some (f, c)) (op : RecOp D) (he : ¬ op.ends) (hc : ∀ v, op ≠ .setCampaign v) :
    (op.run s).counter = s.counter + ((op.recorded.filter Option.isSome).length : Int) := by
  cases op with
  | addDevice d =>
    simp only [RecOp.run, Verif.Recording.addDevice, RecOp.recorded]
    split
    · simp
    · rw [if_pos (by rw [hm]; decide)]; simp
  | setLink x => simp [RecOp.run, Verif.Recording.setLink, RecOp.recorded]
  | setCampaign v => exact absurd rfl (hc v)
  | record f' c' o t =>
    simp only [RecOp.run, Verif.Recording.record, RecOp.recorded]
    rw [if_pos (by rw [hm]; decide)]
    simp
  | replay f' c' k => exact absurd trivial he
  | stop => exact absurd trivial he
  | drop g t p =>
    simp only [RecOp.run, Verif.Recording.drop]
    rw [if_neg (by rw [hm]; decide)]
    cases g with
    | error e => simp [RecOp.recorded]
    | ok d =>
      dsimp only
      rw [if_pos hm, hs]
      cases t with
      | true => simp [RecOp.recorded]
      | false => simp [RecOp.recorded]
  | dropAt g => simp [RecOp.run, Verif.Recording.dropAt, RecOp.recorded]

theorem history_counter {s : Rec D} {f : Nat} {c : Camp} {l : List (Option D)} (ops : List (RecOp D))
    (hm : s.mode = .record) (hs : s.serial = some (f, c)) (hl : slots s.files f c = some l)
    (he : ∀ op ∈ ops, ¬ op.ends) (hc : ∀ op ∈ ops, ∀ v, op ≠ .setCampaign v) :
    (ops.foldl RecOp.run s).counter =
      s.counter + (((ops.flatMap RecOp.recorded).filter Option.isSome).length : Int) := by
  induction ops generalizing s l with
  | nil => simp
  | cons op ops ih =>
    obtain ⟨h1, h2, h3, _⟩ := run_recording hm hs hl op (he op List.mem_cons_self)
    have hr := run_counter hm hs op (he op List.mem_cons_self) (hc op List.mem_cons_self)
    have := ih h1 h2 h3 (fun o ho => he o (List.mem_cons_of_mem _ ho))
      (fun o ho => hc o (List.mem_cons_of_mem _ ho))
    rw [List.foldl_cons, this, hr, List.flatMap_cons, List.filter_append, List.length_append]
    push_cast
    omega

/-- **C35** (counting while recording): as long as the campaign is not changed, `num_drops` is the number of
drops completely written since the recording started, whatever else happened; it is zero in default mode,
in particular after stopping. -/
theorem C35_num_drops_record (s : Rec D) (hm : s.mode = .default) (f : Nat) (c : Camp) (o : Bool)
    (hc : c ≠ some "state") (ops : List (RecOp D)) (he : ∀ op ∈ ops, ¬ op.ends)
    (hv : ∀ op ∈ ops, ∀ v, op ≠ .setCampaign v) :
    numDrops s = 0 ∧
    numDrops (ops.foldl RecOp.run (record s f c o true).2) =
      (((ops.flatMap RecOp.recorded).filter Option.isSome).length : Int) ∧
    ∀ t : Rec D, numDrops (stop t) = 0 := by
  obtain ⟨_, r2, r3, r4, _⟩ := record_ok hm f c o hc
  obtain ⟨h1, _, _, _⟩ := history_recording ops r2 r3 r4 he
  refine ⟨if_pos hm, ?_, fun t => if_pos (C35_stop t).1⟩
  unfold numDrops
  rw [if_neg (by rw [h1]; decide), history_counter ops r2 r3 r4 he hv, record_counter hm f c o hc]
  omega

/-! ### Where the claim fails -/

/-- **C35** fails for the number of drops in replay mode, documented as the recorded number of drops: it is the
number of the next drop to be read, whatever the number of recorded ones. -/
theorem C35_num_drops_replay_fails (s : Rec D) (ds : List D) (f : Nat) (c : Camp)
    (hf : slots s.files f c = some (ds.map some)) (k n : Nat) (hk : k < ds.length) (hn : n ≤ ds.length - k) :
    numDrops (dropN none n (replay s (some f) c k).2).2 = k + n := by
  have e : (replay s (some f) c k).2 = { stop s with
      deser := some (ds.map some)
      replayFile := some f
      counter := k
      campaign := c
      mode := .replay } := by
    unfold replay
    dsimp only
    rw [openCampaign_of_slots hf]
    dsimp only
    rw [if_neg (by rw [List.length_map]; omega)]
  rw [(dropN_replay ds rfl n k _ (by rw [e]) (by rw [e]) (by rw [e]) hk.le hn).2, e]
  rfl


/-- **C35** fails for links: channels can be replaced in every mode. -/
theorem C35_links_fails (s : Rec D) (x : Nat) :
    (setLink s x).1 = .ok () ∧ (setLink s x).2.links = s.links ++ [x] := ⟨rfl, rfl⟩

/-- **C35** fails for campaigns during replay: setting another campaign raises, but the counter of
replayed drops starts over, so the first drop is replayed instead of the next one. -/
theorem C35_campaign_replay_fails (s : Rec D) (hm : s.mode = .replay) (v : Camp) (hv : v ≠ some "state")
    (hc : v ≠ s.campaign) (l : List (Option D)) (d : D) (hl : s.deser = some (some d :: l)) (gen : Except PyErr D)
    (ser : Bool) :
    (setCampaign s v).1 = .error .notImplemented ∧
    (drop (setCampaign s v).2 gen ser none).1 = .ok d := by
  unfold setCampaign
  rw [if_neg hv, if_neg hc, if_pos hm]
  refine ⟨rfl, ?_⟩
  unfold drop
  dsimp only
  rw [if_pos hm, hl]
  rfl

/-- **C35** fails for campaigns during recording: the setter accepts the new campaign and restarts the
number of drops, but the drops go to the old one. -/
theorem C35_campaign_record_fails (s : Rec D) (hm : s.mode = .record) (f : Nat) (c v : Camp)
    (hs : s.serial = some (f, c)) (hv : v ≠ some "state") (hvc : v ≠ c) (hc : v ≠ s.campaign) (d : D)
    (post : Option PyErr) :
    (setCampaign s v).1 = .ok () ∧ (setCampaign s v).2.campaign = v ∧
    slots (drop (setCampaign s v).2 (.ok d) true post).2.files f v = slots s.files f v ∧
    slots (drop (setCampaign s v).2 (.ok d) true post).2.files f c =
      some ((slots s.files f c).getD [] ++ [some d]) := by
  have e : setCampaign s v = (.ok (), { s with
      counter := 0
      campaign := v }) := by
    unfold setCampaign
    rw [if_neg hv, if_neg hc, if_neg (by rw [hm]; decide)]
  rw [e]
  have e2 : (drop { s with
      counter := 0
      campaign := v } (.ok d) true post).2.files =
      putSlots s.files f c ((slots s.files f c).getD [] ++ [some d]) := by
    unfold drop
    dsimp only
    rw [if_neg (by rw [hm]; decide), if_pos hm, hs]
    rfl
  refine ⟨rfl, rfl, ?_, ?_⟩
  · dsimp only
    rw [e2]
    simp only [slots, putSlots, if_true, if_neg hvc]
  · dsimp only
    rw [e2, slots_put]

/-- **C35** fails for the reserved campaign: `record` raises, yet the scenario is recording. -/
theorem C35_reserved_fails (s : Rec D) (hm : s.mode = .default) (f : Nat) (o : Bool) :
    (record s f (some "state") o true).1 = .error .value ∧
    (record s f (some "state") o true).2.mode = .record := by
  unfold record
  rw [if_neg (by rw [hm]; decide)]
  simp only [not_true_eq_false, if_false]
  unfold setCampaign
  rw [if_pos rfl]
  exact ⟨rfl, rfl⟩

/-- **C35** fails for drops at a given time: they are returned but not recorded. -/
theorem C35_timestamp_fails (s : Rec D) (d : D) :
    (dropAt s (.ok d)).1 = .ok d ∧ (dropAt s (.ok d)).2.files = s.files := ⟨rfl, rfl⟩

/-- **C35** fails for negative offsets: `replay` accepts them, announces more drops than there are, and
no drop can be replayed. -/
theorem C35_negative_offset_fails (s : Rec D) (f : Nat) (c : Camp) (l : List (Option D)) (k : Int)
    (hl : slots s.files f c = some l) (hk : k < 0) (n : Nat) :
    (replay s (some f) c k).1 = .ok (l.length - k) ∧
    (dropN none n (replay s (some f) c k).2).1 = List.replicate n (.error .index) := by
  have e : replay s (some f) c k = (.ok (l.length - k), { stop s with
        deser := some l
        replayFile := some f
        counter := k
        campaign := c
        mode := .replay }) := by
    unfold replay
    dsimp only
    rw [openCampaign_of_slots hl]
    dsimp only
    rw [if_neg (by omega)]
  rw [e]
  refine ⟨rfl, ?_⟩
  dsimp only
  generalize hs : ({ stop s with
        deser := some l
        replayFile := some f
        counter := k
        campaign := c
        mode := .replay } : Rec D) = t
  have ht : drop t (.error .runtime) true none = (.error .index, t) := by
    unfold drop
    rw [← hs]
    dsimp only
    simp only [if_true]
    unfold readSlot
    rw [if_pos hk]
  induction n with
  | zero => rfl
  | succ n ih =>
    unfold dropN
    rw [ht]
    dsimp only
    rw [ih, List.replicate_succ]

/-- **C35** fails once the serialization of a drop was interrupted: the drops recorded before it are
replayed, then every further drop raises, the later ones cannot be reached. -/
theorem C35_interrupted_fails (t : Rec D) (hm : t.mode = .replay) (l l' : List (Option D))
    (hd : t.deser = some (l ++ none :: l')) (hc : t.counter = l.length) (n : Nat) :
    (dropN none n t).1 = List.replicate n (.error .runtime) := by
  have ht : drop t (.error .runtime) true none = (.error .runtime, t) := by
    unfold drop
    rw [if_pos hm, hd]
    dsimp only
    unfold readSlot
    rw [hc, if_neg (by omega)]
    simp
  induction n with
  | zero => rfl
  | succ n ih =>
    unfold dropN
    rw [ht]
    dsimp only
    rw [ih, List.replicate_succ]

/-- Two recordings to one campaign with refused and failing calls in between, replayed from 1. -/
def session : Rec Nat :=
  [RecOp.addDevice 5, .record 0 (some "a") false true, .drop (.ok 10) true none, .addDevice 6,
    .drop (.error .value) true none, .drop (.ok 11) true none, .stop, .addDevice 6,
    .record 0 (some "a") false true, .drop (.ok 12) true none, .stop,
    .replay (some 0) (some "a") 1].foldl RecOp.run (Rec.new (fun _ => none))

example : session.devices = [5, 6] := by rfl
example : (dropN none 3 session).1 = [.ok 11, .ok 12, .error .index] := by rfl

end Verif.Recording
