import Verif.Np
import Mathlib.Data.Rat.Defs
import Mathlib.Data.List.Induction
import Mathlib.Tactic.Linarith

/-!
# Channel realizations, link sampling and sample hooks

`hermespy/channel/channel.py`: `ChannelSampleHook`, `LinkState`, `ChannelRealization.sample` and
`reciprocal_sample`, and the hook and realization bookkeeping of `Channel`.

Python object identities (`id(...)`) are natural numbers; what a concrete channel model does with a link
state (`_realize`, `_sample`, `_reciprocal_sample`) is left out: a sample *is* its link state.
-/

namespace Verif.Channel.Link

/-! ## Arguments of a link sample -/

/-- `SimulatedDeviceState` as far as the link looks at it: identity of the device, carrier frequency,
sampling rate, and the time it was taken at. -/
structure DevState where
  deviceId : Nat
  carrier : ℚ
  rate : ℚ
  time : ℚ
  deriving DecidableEq

/-- `SimulatedDevice`: identity, carrier frequency and sampling rate.  Its state at a time,
simulation/simulated_device.py 1532-1545, carries `id(self)`. -/
structure Dev where
  id : Nat
  carrier : ℚ
  rate : ℚ

/-- `SimulatedDevice.state(timestamp)`, simulation/simulated_device.py 1532-1545. -/
def Dev.state (d : Dev) (t : ℚ) : DevState := ⟨d.id, d.carrier, d.rate, t⟩

/-- What may be passed as transmitter or receiver. -/
inductive Party
  | device (d : Dev)
  | state (s : DevState)

/-- `LinkState`, channel/channel.py 116-148. -/
structure LinkState where
  tx : DevState
  rx : DevState
  carrier : ℚ
  bandwidth : ℚ
  time : ℚ
  deriving DecidableEq

/-- Arguments by position and by keyword. -/
structure Args where
  pos : List ℚ
  kw : List (String × ℚ)

/-- `ChannelRealization.sample`, channel/channel.py 530-568: the link state built from the arguments.
`timestamp` is a named parameter and may be given either way; carrier frequency and bandwidth are only
taken from the positional rest.  The keyword rest is never looked at. -/
def sampleLink (tx rx : Party) (timestamp : ℚ) (rest : Args) : Except PyErr LinkState :=
  let carrier := rest.pos[0]?
  let bandwidth := rest.pos[1]?
  match tx, rx with
  | .device t, .device r =>
    .ok ⟨t.state timestamp, r.state timestamp, carrier.getD t.carrier, bandwidth.getD t.rate, timestamp⟩
  | .state t, .state r =>
    .ok ⟨t, r, carrier.getD t.carrier, bandwidth.getD t.rate, timestamp⟩
  | _, _ => .error .value

/-- `ChannelRealization.reciprocal_sample`, channel/channel.py 644-692.  With devices the first
positional argument is the timestamp, with device states the timestamp is the one of the sample. -/
def reciprocalLink (sample : LinkState) (tx rx : Party) (rest : Args) : Except PyErr LinkState :=
  match tx, rx with
  | .device t, .device r =>
    let timestamp := (rest.pos[0]?).getD 0
    .ok ⟨t.state timestamp, r.state timestamp, (rest.pos[1]?).getD t.carrier,
      (rest.pos[2]?).getD t.rate, timestamp⟩
  | .state t, .state r =>
    .ok ⟨t, r, (rest.pos[0]?).getD t.carrier, (rest.pos[1]?).getD t.rate, sample.time⟩
  | _, _ => .error .value

/-- Identity of the device behind a party. -/
def Party.id : Party → Nat
  | .device d => d.id
  | .state s => s.deviceId

/-- C70: a link sampled between two devices, or two device states, uses the positional carrier frequency
and bandwidth and otherwise those of the transmitter, at the requested time. -/
theorem C70_positional (t r : Dev) (time : ℚ) (f b : ℚ) :
    sampleLink (.device t) (.device r) time ⟨[], []⟩ =
      .ok ⟨t.state time, r.state time, t.carrier, t.rate, time⟩ ∧
    sampleLink (.device t) (.device r) time ⟨[f], []⟩ =
      .ok ⟨t.state time, r.state time, f, t.rate, time⟩ ∧
    sampleLink (.device t) (.device r) time ⟨[f, b], []⟩ =
      .ok ⟨t.state time, r.state time, f, b, time⟩ ∧
    sampleLink (.state (t.state time)) (.state (r.state time)) time ⟨[f, b], []⟩ =
      sampleLink (.device t) (.device r) time ⟨[f, b], []⟩ := ⟨rfl, rfl, rfl, rfl⟩

/-- C70: the reciprocal of a link between devices, sampled at the same time with the same carrier
frequency and bandwidth, is the same link with transmitter and receiver exchanged; so is the reciprocal
between the states of the link. -/
theorem C70_reciprocal (t r : Dev) (time f b : ℚ) (l : LinkState)
    (h : sampleLink (.device t) (.device r) time ⟨[f, b], []⟩ = .ok l) :
    reciprocalLink l (.device r) (.device t) ⟨[time, f, b], []⟩ =
      .ok { l with
            tx := l.rx
            rx := l.tx } ∧
    reciprocalLink l (.state l.rx) (.state l.tx) ⟨[f, b], []⟩ =
      .ok { l with
            tx := l.rx
            rx := l.tx } := by
  cases h
  exact ⟨rfl, rfl⟩

example : ∃ l, sampleLink (.device ⟨1, 3, 4⟩) (.device ⟨2, 5, 6⟩) 7 ⟨[8, 9], []⟩ = .ok l ∧
    l.tx.deviceId = 1 := ⟨_, rfl, rfl⟩

/-- C70: mixing a device and a device state is refused. -/
theorem C70_mixed (d : Dev) (s : DevState) (time : ℚ) (l : LinkState) (rest : Args) :
    sampleLink (.device d) (.state s) time rest = .error .value ∧
    sampleLink (.state s) (.device d) time rest = .error .value ∧
    reciprocalLink l (.device d) (.state s) rest = .error .value ∧
    reciprocalLink l (.state s) (.device d) rest = .error .value := ⟨rfl, rfl, rfl, rfl⟩

/-- C70, false of the code: carrier frequency and bandwidth passed by keyword, under exactly the names the
signature documents, are dropped without notice; so is the timestamp of the reciprocal sample, which is
then taken at time zero. -/
theorem C70_keyword_fails (t r : Dev) (time f b : ℚ) (hf : f ≠ t.carrier) (hb : b ≠ t.rate)
    (ht : time ≠ 0) :
    ∃ l m, sampleLink (.device t) (.device r) time
        ⟨[], [("carrier_frequency", f), ("bandwidth", b)]⟩ = .ok l ∧
      l.carrier ≠ f ∧ l.bandwidth ≠ b ∧
      reciprocalLink l (.device r) (.device t) ⟨[], [("timestamp", time)]⟩ = .ok m ∧ m.time ≠ l.time :=
  ⟨⟨t.state time, r.state time, t.carrier, t.rate, time⟩, ⟨r.state 0, t.state 0, r.carrier, r.rate, 0⟩,
    rfl, hf.symm, hb.symm, rfl, ht.symm⟩

example : ∃ (t : Dev) (f b time : ℚ), f ≠ t.carrier ∧ b ≠ t.rate ∧ time ≠ 0 :=
  ⟨⟨0, 1, 1⟩, 2, 3, 4, by norm_num, by norm_num, by norm_num⟩

/-- C70: the scenario (simulation/scenario.py 588-604) samples both directions of a link between device
states: both directions see the same instant. -/
theorem C70_scenario (a b : DevState) (time : ℚ) :
    ∃ l m, sampleLink (.state a) (.state b) time ⟨[], []⟩ = .ok l ∧
      reciprocalLink l (.state b) (.state a) ⟨[], []⟩ = .ok m ∧
      m.time = l.time ∧ m.tx = l.rx ∧ m.rx = l.tx :=
  ⟨_, _, rfl, rfl, rfl, rfl, rfl⟩

/-! ## Hooks and realizations of a channel -/

/-- `ChannelSampleHook`, channel/channel.py 58-80: identity of the hook object and the devices it is
restricted to. -/
structure Hook where
  id : Nat
  tx : Option Nat
  rx : Option Nat
  deriving DecidableEq

/-- `ChannelSampleHook.__call__`, channel/channel.py 94-104: does the callback run? -/
def Hook.fires (h : Hook) (tx rx : Nat) : Bool :=
  if h.tx.isSome ∧ some tx ≠ h.tx then false
  else if h.rx.isSome ∧ some rx ≠ h.rx then false
  else true

/-- A channel and the realizations it made: `__sample_hooks` (channel/channel.py 740, 763), the attribute
`__last_realization` (896, missing before the first cached realization), and the hooks each realization
was handed (channel/ideal.py 155, delay/spatial.py 47-49: the copy of channel/channel.py 827). -/
structure Chan where
  hooks : List Hook
  last : Option Nat
  realizations : List (List Hook)

/-- A fresh channel, channel/channel.py 755-763. -/
def Chan.init : Chan := ⟨[], none, []⟩

/-- What a user may do with a channel. -/
inductive Op
  | addHook (h : Hook)
  | removeHook (h : Hook)
  | realize (cache : Bool)

/-- `add_sample_hook` 851-853, `remove_sample_hook` 863, `realize` 892-898 of channel/channel.py. -/
def Chan.step (c : Chan) : Op → Chan
  | .addHook h => { c with hooks := if h ∈ c.hooks then c.hooks else c.hooks ++ [h] }
  | .removeHook h => { c with hooks := c.hooks.filter fun x => x ≠ h }
  | .realize cache =>
    { c with
      realizations := c.realizations ++ [c.hooks]
      last := if cache then some c.realizations.length else c.last }

/-- A history of operations. -/
def Chan.run (c : Chan) (ops : List Op) : Chan := ops.foldl Chan.step c

/-- `Channel.realization`, channel/channel.py 908: the attribute does not exist before the first cached
realization. -/
def Chan.realization (c : Chan) : Except PyErr Nat :=
  match c.last with
  | none => .error .attribute
  | some k => .ok k

/-- The callbacks run by `sample` (channel/channel.py 573-575) or `reciprocal_sample` (697-699) of
realization `k`. -/
def Chan.called (c : Chan) (k : Nat) (tx rx : Party) : List Nat :=
  (((c.realizations[k]?).getD []).filter fun h => h.fires tx.id rx.id).map Hook.id

/-- Hooks that are registered after a history: added, and not removed since. -/
def registered (ops : List Op) (h : Hook) : Prop :=
  ∃ pre post, ops = pre ++ Op.addHook h :: post ∧ Op.removeHook h ∉ post

theorem mem_step_hooks (c : Chan) (op : Op) (h : Hook) :
    h ∈ (c.step op).hooks ↔ op = .addHook h ∨ (h ∈ c.hooks ∧ op ≠ .removeHook h) := by
  cases op with
  | addHook g =>
    unfold Chan.step
    dsimp only
    by_cases hg : g ∈ c.hooks
    · rw [if_pos hg]
      constructor
      · exact fun h' => Or.inr ⟨h', by simp⟩
      · rintro (h' | h')
        · cases h'; exact hg
        · exact h'.1
    · rw [if_neg hg, List.mem_append, List.mem_singleton]
      constructor
      · rintro (h' | h')
        · exact Or.inr ⟨h', by simp⟩
        · exact Or.inl (by rw [h'])
      · rintro (h' | h')
        · cases h'; exact Or.inr rfl
        · exact Or.inl h'.1
  | removeHook g =>
    unfold Chan.step
    simp only [List.mem_filter, decide_eq_true_eq, reduceCtorEq, false_or, ne_eq,
      Op.removeHook.injEq]
    constructor
    · exact fun h' => ⟨h'.1, fun hg => h'.2 hg.symm⟩
    · exact fun h' => ⟨h'.1, fun hg => h'.2 hg.symm⟩
  | realize cache =>
    simp [Chan.step]

theorem registered_snoc (ops : List Op) (op : Op) (h : Hook) :
    registered (ops ++ [op]) h ↔ op = .addHook h ∨ (registered ops h ∧ op ≠ .removeHook h) := by
  constructor
  · rintro ⟨pre, post, he, hn⟩
    rcases List.eq_nil_or_concat post with rfl | ⟨post', x, rfl⟩
    · have h1 := List.append_inj_right' he (by simp)
      exact Or.inl (by simpa using h1)
    · rw [List.concat_eq_append] at he hn
      have h1 : ops ++ [op] = (pre ++ Op.addHook h :: post') ++ [x] := by rw [he]; simp
      have h2 := List.append_inj' h1 rfl
      have hx : op = x := by simpa using h2.2
      refine Or.inr ⟨⟨pre, post', h2.1, fun hm => hn (by simp [hm])⟩, fun hr => hn ?_⟩
      rw [← hx, hr]; simp
  · rintro (rfl | ⟨⟨pre, post, rfl, hn⟩, hne⟩)
    · exact ⟨ops, [], rfl, by simp⟩
    · refine ⟨pre, post ++ [op], by simp, fun hm => ?_⟩
      rcases List.mem_append.mp hm with hm | hm
      · exact hn hm
      · exact hne (by simpa using (List.mem_singleton.mp hm).symm)

theorem run_snoc (c : Chan) (ops : List Op) (op : Op) : c.run (ops ++ [op]) = (c.run ops).step op := by
  simp [Chan.run]

/-- C70: after every history the channel holds exactly the hooks that were added and not removed since. -/
theorem C70_hooks (ops : List Op) (h : Hook) :
    h ∈ (Chan.init.run ops).hooks ↔ registered ops h := by
  induction ops using List.reverseRecOn with
  | nil =>
    constructor
    · intro h'; simp [Chan.run, Chan.init] at h'
    · rintro ⟨pre, post, he, _⟩; simp at he
  | append_singleton ops op ih => rw [run_snoc, mem_step_hooks, ih, registered_snoc]

theorem realizations_step (c : Chan) (op : Op) (k : Nat) (l : List Hook)
    (h : c.realizations[k]? = some l) : (c.step op).realizations[k]? = some l := by
  cases op with
  | addHook g => exact h
  | removeHook g => exact h
  | realize cache =>
    have hlt := (List.getElem?_eq_some_iff.mp h).1
    simp only [Chan.step]
    rw [List.getElem?_append_left hlt]
    exact h

theorem realizations_run (c : Chan) (ops : List Op) (k : Nat) (l : List Hook)
    (h : c.realizations[k]? = some l) : (c.run ops).realizations[k]? = some l := by
  induction ops generalizing c with
  | nil => exact h
  | cons op rest ih => exact ih (c.step op) (realizations_step c op k l h)

theorem fires_iff (h : Hook) (tx rx : Nat) :
    h.fires tx rx = true ↔ (h.tx = none ∨ h.tx = some tx) ∧ (h.rx = none ∨ h.rx = some rx) := by
  obtain ⟨i, a, b⟩ := h
  unfold Hook.fires
  cases a with
  | none =>
    cases b with
    | none => simp
    | some b =>
      by_cases h : b = rx
      · simp [h]
      · simp [h, Ne.symm h]
  | some a =>
    cases b with
    | none =>
      by_cases h : a = tx
      · simp [h]
      · simp [h, Ne.symm h]
    | some b =>
      by_cases h1 : a = tx
      · by_cases h2 : b = rx
        · simp [h1, h2]
        · simp [h1, h2, Ne.symm h2]
      · simp [h1, Ne.symm h1]

/-- C70: sampling a realization, by devices or by device states, in either direction, at any later point
of the history, runs the callback of a hook exactly if the hook was registered *when the realization was
made* and is not restricted to another transmitter or receiver. -/
theorem C70_called (before after : List Op) (cache : Bool) (tx rx : Party) (i : Nat) :
    i ∈ (Chan.init.run (before ++ Op.realize cache :: after)).called
        (Chan.init.run before).realizations.length tx rx ↔
      ∃ h, registered before h ∧ h.id = i ∧ (h.tx = none ∨ h.tx = some tx.id) ∧
        (h.rx = none ∨ h.rx = some rx.id) := by
  have h1 : (Chan.init.run (before ++ Op.realize cache :: after)).realizations[
      (Chan.init.run before).realizations.length]? = some (Chan.init.run before).hooks := by
    have hrun : Chan.init.run (before ++ Op.realize cache :: after) =
        ((Chan.init.run before).step (.realize cache)).run after := by
      simp [Chan.run]
    rw [hrun]
    refine realizations_run _ _ _ _ ?_
    simp [Chan.step]
  unfold Chan.called
  rw [h1, Option.getD_some]
  simp only [List.mem_map, List.mem_filter]
  constructor
  · rintro ⟨h, ⟨hm, hf⟩, hi⟩
    exact ⟨h, (C70_hooks before h).mp hm, hi, (fires_iff h _ _).mp hf⟩
  · rintro ⟨h, hr, hi, hf⟩
    exact ⟨h, ⟨(C70_hooks before h).mpr hr, (fires_iff h _ _).mpr hf⟩, hi⟩

/-- A hook restricted to transmitter 5, removed after the realization, still runs for transmitter 5. -/
example : (Chan.init.run [.addHook ⟨0, some 5, none⟩, .realize true, .removeHook ⟨0, some 5, none⟩]).called
    0 (.device ⟨5, 1, 1⟩) (.device ⟨6, 1, 1⟩) = [0] := by decide

/-- C70: `realization` is the newest realization that was cached. -/
theorem C70_realization (before after : List Op) (h : ∀ op ∈ after, op ≠ .realize true) :
    (Chan.init.run (before ++ Op.realize true :: after)).realization =
      .ok (Chan.init.run before).realizations.length := by
  have hlast : ∀ (l : List Op) (c : Chan), (∀ op ∈ l, op ≠ .realize true) → (c.run l).last = c.last := by
    intro l
    induction l with
    | nil => exact fun c _ => rfl
    | cons op rest ih =>
      intro c hl
      have h1 : (c.run (op :: rest)) = (c.step op).run rest := rfl
      rw [h1, ih _ fun o ho => hl o (by simp [ho])]
      cases op with
      | addHook g => rfl
      | removeHook g => rfl
      | realize cache =>
        cases cache with
        | false => rfl
        | true => exact absurd rfl (hl _ (by simp))
  have hrun : Chan.init.run (before ++ Op.realize true :: after) =
      ((Chan.init.run before).step (.realize true)).run after := by
    simp [Chan.run]
  unfold Chan.realization
  rw [hrun, hlast after _ h]
  rfl

example : (Chan.init.run [.realize true, .realize true, .realize false]).realization = .ok 1 := rfl

/-- C70, false of the code: before the first cached realization the property `realization`, documented to
be `None`, raises `AttributeError`, whatever else happened to the channel. -/
theorem C70_realization_fails (ops : List Op) (h : ∀ op ∈ ops, op ≠ .realize true) :
    (Chan.init.run ops).realization = .error .attribute := by
  have hlast : (Chan.init.run ops).last = none := by
    induction ops using List.reverseRecOn with
    | nil => rfl
    | append_singleton ops op ih =>
      rw [run_snoc]
      have ih' := ih fun o ho => h o (by simp [ho])
      cases op with
      | addHook g => exact ih'
      | removeHook g => exact ih'
      | realize cache =>
        cases cache with
        | false => exact ih'
        | true => exact absurd rfl (h _ (by simp))
  unfold Chan.realization
  rw [hlast]

example : (Chan.init.run [.addHook ⟨0, none, none⟩, .realize false]).realization = .error .attribute :=
  rfl

end Verif.Channel.Link
