import Verif.Np
import Mathlib.Data.List.Basic
import Mathlib.Data.List.Nodup
import Mathlib.Tactic.Common

/-!
# C36, C37: channels linking devices, and propagation over them

`simulation/scenario.py`.  Devices and channels are identities; `in`, `index` and `remove` on lists
compare by identity since neither class defines `__eq__`.
-/

namespace Verif.Sim

/-- The key `frozenset((alpha, beta))`. -/
def key (a b : Nat) : Nat × Nat := if a ≤ b then (a, b) else (b, a)

/-- Registered devices, `__default_channel`, `__channels` and `__links`. -/
structure Scn where
  devices : List Nat
  dflt : Nat
  channels : List Nat
  links : Nat × Nat → Option Nat
  /-- Insertion order of the keys of `__links`. -/
  keys : List (Nat × Nat)

/-- `SimulationScenario.__init__`, `simulation/scenario.py` 218-221. -/
def Scn.new (d : Nat) : Scn := ⟨[], d, [d], fun _ => none, []⟩

/-- `Scenario.add_device`, `core/scenario.py` 130-157, in default mode. -/
def addDevice (s : Scn) (d : Nat) : Except PyErr Scn :=
  if d ∈ s.devices then .error .value else .ok { s with devices := s.devices ++ [d] }

/-- `channel`, `simulation/scenario.py` 251-277. -/
def channel (s : Scn) (a b : Nat) : Except PyErr Nat :=
  if a ∉ s.devices then .error .value
  else if b ∉ s.devices then .error .value
  else .ok ((s.links (key a b)).getD s.dflt)

/-- `self.__links.values()`. -/
def linkValues (s : Scn) : List Nat := s.keys.filterMap s.links

/-- The links after `self.__links[key] = channel`. -/
def putLink (s : Scn) (k : Nat × Nat) (c : Nat) : Scn :=
  { s with
    links := fun k' => if k' = k then some c else s.links k'
    keys := if k ∈ s.keys then s.keys else s.keys ++ [k] }

/-- Removal of the replaced channel, `simulation/scenario.py` 346-350. -/
def dropOld (s : Scn) (old : Option Nat) : Scn :=
  match old with
  | none => s
  | some o => if o ∈ linkValues s then s else { s with channels := s.channels.erase o }

/-- Addition of the new channel, `simulation/scenario.py` 352-355. -/
def noteChannel (s : Scn) (c : Nat) : Scn :=
  if c ∈ s.channels then s else { s with channels := s.channels ++ [c] }

/-- `set_channel`, `simulation/scenario.py` 316-355. -/
def setChannel (s : Scn) (a b c : Nat) : Except PyErr Scn :=
  if a ∉ s.devices then .error .value
  else if b ∉ s.devices then .error .value
  else .ok (noteChannel (dropOld (putLink s (key a b) c) (s.links (key a b))) c)

/-- Calls changing the scenario. -/
inductive LinkOp
  | add (d : Nat)
  | set (a b c : Nat)

/-- A call; the scenario is unchanged if it raises. -/
def LinkOp.run (s : Scn) : LinkOp → Scn
  | .add d => match addDevice s d with
    | .ok s' => s'
    | .error _ => s
  | .set a b c => match setChannel s a b c with
    | .ok s' => s'
    | .error _ => s

theorem run_add (s : Scn) (d : Nat) : (LinkOp.add d).run s = match addDevice s d with
    | .ok s' => s'
    | .error _ => s := rfl

theorem run_set (s : Scn) (a b c : Nat) : (LinkOp.set a b c).run s = match setChannel s a b c with
    | .ok s' => s'
    | .error _ => s := rfl

/-- A history of calls. -/
def runLinks (s : Scn) (ops : List LinkOp) : Scn := ops.foldl LinkOp.run s

theorem key_comm (a b : Nat) : key a b = key b a := by
  unfold key
  by_cases h : a ≤ b <;> by_cases h' : b ≤ a <;> simp [h, h'] <;> omega

theorem key_eq_iff (a b x y : Nat) : key a b = key x y ↔ (a = x ∧ b = y) ∨ (a = y ∧ b = x) := by
  unfold key
  by_cases h : a ≤ b <;> by_cases h' : x ≤ y <;> simp [h, h'] <;> omega

/-- What holds after any history. -/
structure LinkInv (s : Scn) : Prop where
  nodup : s.channels.Nodup
  listed : ∀ k c, s.links k = some c → c ∈ s.channels
  keyed : ∀ k c, s.links k = some c → k ∈ s.keys
  keysNodup : s.keys.Nodup
  devNodup : s.devices.Nodup

theorem mem_linkValues {s : Scn} (hk : ∀ k c, s.links k = some c → k ∈ s.keys) (c : Nat) :
    c ∈ linkValues s ↔ ∃ k, s.links k = some c := by
  unfold linkValues
  rw [List.mem_filterMap]
  constructor
  · rintro ⟨k, _, h⟩; exact ⟨k, h⟩
  · rintro ⟨k, h⟩; exact ⟨k, hk k c h, h⟩

theorem setChannel_ok {s s' : Scn} {a b c : Nat} (h : setChannel s a b c = .ok s') :
    a ∈ s.devices ∧ b ∈ s.devices ∧
    s' = noteChannel (dropOld (putLink s (key a b) c) (s.links (key a b))) c := by
  unfold setChannel at h
  split at h
  · cases h
  split at h
  · cases h
  · rename_i h1 h2
    cases h
    exact ⟨by simpa using h1, by simpa using h2, rfl⟩

theorem putLink_links (s : Scn) (k : Nat × Nat) (c : Nat) (k' : Nat × Nat) :
    (putLink s k c).links k' = if k' = k then some c else s.links k' := rfl

theorem dropOld_same (s : Scn) (o : Option Nat) :
    (dropOld s o).links = s.links ∧ (dropOld s o).devices = s.devices ∧ (dropOld s o).dflt = s.dflt ∧
    (dropOld s o).keys = s.keys := by
  unfold dropOld
  cases o with
  | none => exact ⟨rfl, rfl, rfl, rfl⟩
  | some o => dsimp only; split <;> exact ⟨rfl, rfl, rfl, rfl⟩

theorem noteChannel_same (s : Scn) (c : Nat) :
    (noteChannel s c).links = s.links ∧ (noteChannel s c).devices = s.devices ∧
    (noteChannel s c).dflt = s.dflt ∧ (noteChannel s c).keys = s.keys := by
  unfold noteChannel; split <;> exact ⟨rfl, rfl, rfl, rfl⟩

theorem noteChannel_channels (s : Scn) (c x : Nat) :
    x ∈ (noteChannel s c).channels ↔ x ∈ s.channels ∨ x = c := by
  unfold noteChannel
  split
  · rename_i h
    constructor
    · exact Or.inl
    · rintro (h' | rfl)
      · exact h'
      · exact h
  · simp

/-- The effect of a successful `set_channel`. -/
theorem setChannel_spec {s s' : Scn} (inv : LinkInv s) {a b c : Nat} (h : setChannel s a b c = .ok s') :
    LinkInv s' ∧ s'.devices = s.devices ∧ s'.dflt = s.dflt ∧
    (∀ k, s'.links k = if k = key a b then some c else s.links k) ∧
    (∀ x, x ∈ s'.channels ↔ x = c ∨ (x ∈ s.channels ∧
      ¬ (s.links (key a b) = some x ∧ ∀ k, s'.links k ≠ some x))) := by
  obtain ⟨_, _, rfl⟩ := setChannel_ok h
  obtain ⟨n1, n2, n3, n4⟩ := noteChannel_same (dropOld (putLink s (key a b) c) (s.links (key a b))) c
  obtain ⟨d1, d2, d3, d4⟩ := dropOld_same (putLink s (key a b) c) (s.links (key a b))
  have hl : ∀ k, (noteChannel (dropOld (putLink s (key a b) c) (s.links (key a b))) c).links k =
      if k = key a b then some c else s.links k := by
    intro k; rw [n1, d1]; rfl
  have hkeys : ∀ k c', (putLink s (key a b) c).links k = some c' → k ∈ (putLink s (key a b) c).keys := by
    intro k c' hk
    rw [putLink_links] at hk
    simp only [putLink]
    split at hk
    · rename_i e
      subst e
      split
      · assumption
      · simp
    · have := inv.keyed k c' hk
      split
      · exact this
      · exact List.mem_append_left _ this
  have hdrop : ∀ x, x ∈ (dropOld (putLink s (key a b) c) (s.links (key a b))).channels ↔
      x ∈ s.channels ∧ ¬ (s.links (key a b) = some x ∧ ∀ k, (putLink s (key a b) c).links k ≠ some x) := by
    intro x
    unfold dropOld
    cases ho : s.links (key a b) with
    | none => simp [putLink]
    | some o =>
      dsimp only
      split
      · rename_i hm
        rw [mem_linkValues hkeys] at hm
        constructor
        · intro hx
          refine ⟨hx, ?_⟩
          rintro ⟨e, hn⟩
          cases e
          obtain ⟨k, hk⟩ := hm
          exact hn k hk
        · exact fun hx => hx.1
      · rename_i hm
        rw [mem_linkValues hkeys] at hm
        show x ∈ s.channels.erase o ↔ _
        rw [inv.nodup.mem_erase_iff]
        constructor
        · rintro ⟨h1, h2⟩
          exact ⟨h2, fun ⟨e, _⟩ => h1 (by cases e; rfl)⟩
        · rintro ⟨h1, h2⟩
          refine ⟨?_, h1⟩
          rintro rfl
          exact h2 ⟨rfl, fun k hk => hm ⟨k, hk⟩⟩
  have hch : ∀ x, x ∈ (noteChannel (dropOld (putLink s (key a b) c) (s.links (key a b))) c).channels ↔
      x = c ∨ (x ∈ s.channels ∧ ¬ (s.links (key a b) = some x ∧
        ∀ k, (noteChannel (dropOld (putLink s (key a b) c) (s.links (key a b))) c).links k ≠ some x)) := by
    intro x
    rw [noteChannel_channels, hdrop, n1, d1]
    tauto
  refine ⟨⟨?_, ?_, ?_, ?_, ?_⟩, n2.trans d2, n3.trans d3, hl, hch⟩
  · have hnd : (dropOld (putLink s (key a b) c) (s.links (key a b))).channels.Nodup := by
      unfold dropOld
      cases s.links (key a b) with
      | none => exact inv.nodup
      | some o =>
        dsimp only
        split
        · exact inv.nodup
        · exact inv.nodup.erase _
    unfold noteChannel
    split
    · exact hnd
    · rename_i hm
      dsimp only
      rw [List.nodup_append]
      refine ⟨hnd, by simp, ?_⟩
      intro x hx y hy
      simp only [List.mem_singleton] at hy
      subst hy
      rintro rfl
      exact hm hx
  · intro k x hk
    rw [hch]
    have hk' := hk
    rw [hl] at hk
    split at hk
    · cases hk; exact Or.inl rfl
    · exact Or.inr ⟨inv.listed k x hk, fun ⟨_, hn⟩ => hn k hk'⟩
  · intro k x hk
    rw [n4, d4]
    rw [n1, d1] at hk
    exact hkeys k x hk
  · rw [n4, d4]
    simp only [putLink]
    split
    · exact inv.keysNodup
    · rename_i hm
      rw [List.nodup_append]
      refine ⟨inv.keysNodup, by simp, ?_⟩
      intro x hx y hy
      simp only [List.mem_singleton] at hy
      subst hy
      rintro rfl
      exact hm hx
  · rw [n2, d2]; exact inv.devNodup

theorem addDevice_spec {s s' : Scn} (inv : LinkInv s) {d : Nat} (h : addDevice s d = .ok s') :
    LinkInv s' ∧ s'.links = s.links ∧ s'.channels = s.channels ∧ s'.dflt = s.dflt ∧
    s'.devices = s.devices ++ [d] ∧ d ∉ s.devices := by
  unfold addDevice at h
  split at h
  · cases h
  · rename_i hd
    cases h
    refine ⟨⟨inv.nodup, inv.listed, inv.keyed, inv.keysNodup, ?_⟩, rfl, rfl, rfl, rfl, hd⟩
    show (s.devices ++ [d]).Nodup
    rw [List.nodup_append]
    refine ⟨inv.devNodup, by simp, ?_⟩
    intro x hx y hy
    simp only [List.mem_singleton] at hy
    subst hy
    rintro rfl
    exact hd hx

theorem runOp_inv {s : Scn} (inv : LinkInv s) (op : LinkOp) : LinkInv (op.run s) := by
  cases op with
  | add d =>
    simp only [run_add]
    cases h : addDevice s d with
    | ok s' => exact (addDevice_spec inv h).1
    | error e => exact inv
  | set a b c =>
    simp only [run_set]
    cases h : setChannel s a b c with
    | ok s' => exact (setChannel_spec inv h).1
    | error e => exact inv

theorem runLinks_inv {s : Scn} (inv : LinkInv s) (ops : List LinkOp) : LinkInv (runLinks s ops) := by
  induction ops generalizing s with
  | nil => exact inv
  | cons op ops ih => exact ih (runOp_inv inv op)

theorem new_inv (d : Nat) : LinkInv (Scn.new d) :=
  ⟨by simp [Scn.new], by simp [Scn.new], by simp [Scn.new], by simp [Scn.new], by simp [Scn.new]⟩

/-- **C36** (symmetry): the channel between two devices does not depend on their order. -/
theorem C36_symmetric (s : Scn) (a b : Nat) : channel s a b = channel s b a := by
  unfold channel
  rw [key_comm]
  by_cases h1 : a ∈ s.devices <;> by_cases h2 : b ∈ s.devices <;> simp [h1, h2]

/-- A call that may change the channel between `a` and `b`. -/
def LinkOp.touches (a b : Nat) : LinkOp → Prop
  | .add _ => False
  | .set x y _ => (x = a ∧ y = b) ∨ (x = b ∧ y = a)

theorem run_untouched {s : Scn} (inv : LinkInv s) (a b : Nat) (ops : List LinkOp)
    (h : ∀ op ∈ ops, ¬ op.touches a b) :
    (runLinks s ops).links (key a b) = s.links (key a b) ∧ (runLinks s ops).dflt = s.dflt ∧
    (∀ d ∈ s.devices, d ∈ (runLinks s ops).devices) := by
  induction ops generalizing s with
  | nil => exact ⟨rfl, rfl, fun _ h => h⟩
  | cons op ops ih =>
    have hrun : (op.run s).links (key a b) = s.links (key a b) ∧ (op.run s).dflt = s.dflt ∧
        (∀ d ∈ s.devices, d ∈ (op.run s).devices) := by
      cases op with
      | add d =>
        simp only [run_add]
        cases h1 : addDevice s d with
        | ok s' =>
          obtain ⟨_, e1, _, e2, e3, _⟩ := addDevice_spec inv h1
          exact ⟨by dsimp only; rw [e1], e2, fun x hx => by dsimp only; rw [e3]; exact List.mem_append_left _ hx⟩
        | error e => exact ⟨rfl, rfl, fun _ h => h⟩
      | set x y c =>
        simp only [run_set]
        cases h1 : setChannel s x y c with
        | ok s' =>
          obtain ⟨_, e1, e2, e3, _⟩ := setChannel_spec inv h1
          refine ⟨?_, e2, fun z hz => by dsimp only; rw [e1]; exact hz⟩
          dsimp only
          rw [e3, if_neg]
          intro e
          have ht := h (.set x y c) List.mem_cons_self
          rw [key_eq_iff] at e
          apply ht
          rcases e with ⟨e1, e2⟩ | ⟨e1, e2⟩
          · exact Or.inl ⟨e1.symm, e2.symm⟩
          · exact Or.inr ⟨e2.symm, e1.symm⟩
        | error e => exact ⟨rfl, rfl, fun _ h => h⟩
    obtain ⟨a1, a2, a3⟩ := ih (runOp_inv inv op) (fun op' h' => h op' (List.mem_cons_of_mem _ h'))
    exact ⟨a1.trans hrun.1, a2.trans hrun.2.1, fun d hd => a3 d (hrun.2.2 d hd)⟩

/-- **C36** (latest channel): after any history, the channel between two devices, asked in either
order, is the one set last for the pair … -/
theorem C36_latest (dflt : Nat) (pre post : List LinkOp) (a b c : Nat) (s' : Scn)
    (hset : setChannel (runLinks (Scn.new dflt) pre) a b c = .ok s')
    (hpost : ∀ op ∈ post, ¬ op.touches a b) :
    channel (runLinks s' post) a b = .ok c ∧ channel (runLinks s' post) b a = .ok c := by
  have inv := runLinks_inv (new_inv dflt) pre
  obtain ⟨inv', e1, e2, e3, _⟩ := setChannel_spec inv hset
  obtain ⟨ha, hb, _⟩ := setChannel_ok hset
  obtain ⟨l, _, dv⟩ := run_untouched inv' a b post hpost
  have main : channel (runLinks s' post) a b = .ok c := by
    unfold channel
    rw [if_neg (by simpa using dv a (by rw [e1]; exact ha)),
      if_neg (by simpa using dv b (by rw [e1]; exact hb)), l, e3, if_pos rfl]
    rfl
  exact ⟨main, by rw [C36_symmetric]; exact main⟩

/-- … or the default if none was ever set for the pair. -/
theorem C36_default (dflt : Nat) (ops : List LinkOp) (a b : Nat) (h : ∀ op ∈ ops, ¬ op.touches a b)
    (ha : a ∈ (runLinks (Scn.new dflt) ops).devices) (hb : b ∈ (runLinks (Scn.new dflt) ops).devices) :
    channel (runLinks (Scn.new dflt) ops) a b = .ok dflt := by
  obtain ⟨l, d, _⟩ := run_untouched (new_inv dflt) a b ops h
  unfold channel
  rw [if_neg (by simpa using ha), if_neg (by simpa using hb), l, d]
  rfl

/-- **C36** (list of channels): it has no duplicates and contains every channel ever set that is still
the channel of some pair. -/
theorem C36_channels (dflt : Nat) (ops : List LinkOp) :
    (runLinks (Scn.new dflt) ops).channels.Nodup ∧
    ∀ k c, (runLinks (Scn.new dflt) ops).links k = some c → c ∈ (runLinks (Scn.new dflt) ops).channels :=
  ⟨(runLinks_inv (new_inv dflt) ops).nodup, (runLinks_inv (new_inv dflt) ops).listed⟩

/-- The default channel stays in the list unless it was set explicitly. -/
theorem default_listed {s : Scn} (inv : LinkInv s) (hd : s.dflt ∈ s.channels)
    (hl : ∀ k, s.links k ≠ some s.dflt) (ops : List LinkOp)
    (h : ∀ op ∈ ops, ∀ a b, op ≠ .set a b s.dflt) :
    (runLinks s ops).dflt = s.dflt ∧ s.dflt ∈ (runLinks s ops).channels := by
  induction ops generalizing s with
  | nil => exact ⟨rfl, hd⟩
  | cons op ops ih =>
    have step : (op.run s).dflt = s.dflt ∧ s.dflt ∈ (op.run s).channels ∧
        ∀ k, (op.run s).links k ≠ some s.dflt := by
      cases op with
      | add d =>
        simp only [run_add]
        cases h1 : addDevice s d with
        | ok s' =>
          obtain ⟨_, e1, e2, e3, _, _⟩ := addDevice_spec inv h1
          exact ⟨e3, by dsimp only; rw [e2]; exact hd, by dsimp only; rw [e1]; exact hl⟩
        | error e => exact ⟨rfl, hd, hl⟩
      | set x y c =>
        simp only [run_set]
        cases h1 : setChannel s x y c with
        | ok s' =>
          obtain ⟨_, e1, e2, e3, e4⟩ := setChannel_spec inv h1
          refine ⟨e2, ?_, ?_⟩
          · dsimp only
            rw [e4]
            exact Or.inr ⟨hd, fun ⟨hx, _⟩ => hl _ hx⟩
          · intro k
            dsimp only
            rw [e3]
            split
            · intro e
              cases e
              exact h _ List.mem_cons_self x y rfl
            · exact hl k
        | error e => exact ⟨rfl, hd, hl⟩
    obtain ⟨s1, s2, s3⟩ := step
    have := ih (runOp_inv inv op) (by rw [s1]; exact s2) (by rw [s1]; exact s3)
      (by rw [s1]; exact fun op' h' => h op' (List.mem_cons_of_mem _ h'))
    rw [s1] at this
    exact this

/-- **C36** (in use): if the default channel is not itself passed to `set_channel`, the list contains
the channel of every pair of registered devices, so that `propagate` finds a realization.  Missing for
the full claim: histories which set the default channel explicitly, see below. -/
theorem C36_in_use_partial (dflt : Nat) (ops : List LinkOp) (h : ∀ op ∈ ops, ∀ a b, op ≠ .set a b dflt)
    (a b c : Nat) (hc : channel (runLinks (Scn.new dflt) ops) a b = .ok c) :
    c ∈ (runLinks (Scn.new dflt) ops).channels := by
  obtain ⟨hd, hm⟩ := default_listed (new_inv dflt) (by simp [Scn.new]) (by simp [Scn.new]) ops h
  unfold channel at hc
  split at hc
  · cases hc
  split at hc
  · cases hc
  · cases hc
    cases hk : (runLinks (Scn.new dflt) ops).links (key a b) with
    | some x => exact (runLinks_inv (new_inv dflt) ops).listed _ _ hk
    | none => rw [hd]; exact hm

/-- Three devices; the default channel 9 is set for the first two and then replaced by 5. -/
def dropsDefault : List LinkOp := [.add 0, .add 1, .add 2, .set 0 1 9, .set 0 1 5]

/-- **C36** fails if the default channel is set for a pair and then replaced: it is removed from the
list although the other pairs still use it. -/
theorem C36_default_dropped_fails :
    channel (runLinks (Scn.new 9) dropsDefault) 0 2 = .ok 9 ∧
    9 ∉ (runLinks (Scn.new 9) dropsDefault).channels := by
  constructor
  · rfl
  · decide

example : channel (runLinks (Scn.new 9) [.add 4, .add 2, .set 4 2 7, .add 3, .set 2 3 8, .set 2 4 6]) 2 4 =
    .ok 6 := by rfl
example : (runLinks (Scn.new 9) [.add 4, .add 2, .set 4 2 7, .add 3, .set 2 3 8, .set 2 4 6]).channels =
    [9, 8, 6] := by rfl

/-! ### `device_channels` -/

/-- `device_channels` with `active_only`, `simulation/scenario.py` 279-314; `gain` are the channels'
gains (only their sign matters).  The returned set is a list here; membership is what counts. -/
def deviceChannels (s : Scn) (active : Nat → Bool) (activeOnly : Bool) (d : Nat) : Except PyErr (List Nat) :=
  if d ∉ s.devices then .error .value
  else
    let found := s.keys.filterMap (fun k =>
      if (k.1 = d ∨ k.2 = d) ∧ (activeOnly = false ∨ (s.links k).any active) then s.links k else none)
    if found.length < s.devices.length then .ok (found ++ [s.dflt]) else .ok found

/-- `device_channels` claims channels of gain zero when asked for active channels only: with the
default channel inactive (`active 9 = false`) and no link set, it is still returned. -/
theorem C36_inactive_default_fails :
    deviceChannels (runLinks (Scn.new 9) [.add 0, .add 1]) (fun _ => false) true 0 = .ok [9] := by rfl

/-! ### Propagation -/

section Propagate

variable {X Y St Re Sa : Type}

/-- Operations of channel realizations and samples: `sample`, `reciprocal_sample`, `propagate`. -/
structure ChanOps (X Y St Re Sa : Type) where
  sample : Re → St → St → Sa
  recip : Re → Sa → St → St → Sa
  prop : Sa → X → Y

/-- `list.index`. -/
def indexOf (l : List Nat) (c : Nat) : Except PyErr Nat :=
  match l.findIdx? (· == c) with
  | some i => .ok i
  | none => .error .value

/-- Body of the inner loop of `propagate`, `simulation/scenario.py` 577-609, for the devices at the
positions `α ≥ β`. -/
def propagatePair (ops : ChanOps X Y St Re Sa) (s : Scn) (reals : List Re) (states : List St)
    (tx : List X) (α β : Nat) (m : Nat → Nat → Option Y) : Except PyErr (Nat → Nat → Option Y) :=
  match s.devices[α]?, s.devices[β]?, states[α]?, states[β]?, tx[α]?, tx[β]? with
  | some a, some b, some sa, some sb, some xa, some xb =>
    match channel s a b with
    | .error e => .error e
    | .ok c => match indexOf s.channels c with
      | .error e => .error e
      | .ok i => match reals[i]? with
        | none => .error .index
        | some re =>
          let ab := ops.sample re sa sb
          let m1 := fun i j => if i = β ∧ j = α then some (ops.prop ab xa) else m i j
          if α = β then .ok m1
          else .ok (fun i j => if i = α ∧ j = β then some (ops.prop (ops.recip re ab sb sa) xb)
            else m1 i j)
  | _, _, _, _, _, _ => .error .index

/-- The first `n` iterations of the inner loop for the outer index `α`. -/
def innerLoop (ops : ChanOps X Y St Re Sa) (s : Scn) (reals : List Re) (states : List St)
    (tx : List X) (α : Nat) (m : Nat → Nat → Option Y) : Nat → Except PyErr (Nat → Nat → Option Y)
  | 0 => .ok m
  | n + 1 => match innerLoop ops s reals states tx α m n with
    | .error e => .error e
    | .ok m1 => propagatePair ops s reals states tx α n m1

/-- The first `n` iterations of the outer loop; the matrix starts out empty (`None`). -/
def outerLoop (ops : ChanOps X Y St Re Sa) (s : Scn) (reals : List Re) (states : List St)
    (tx : List X) : Nat → Except PyErr (Nat → Nat → Option Y)
  | 0 => .ok (fun _ _ => none)
  | n + 1 => match outerLoop ops s reals states tx n with
    | .error e => .error e
    | .ok m => innerLoop ops s reals states tx n m (n + 1)

/-- `propagate`, `simulation/scenario.py` 518-611, for given device states and realizations.  `zip` ends
the loops with the shorter of devices and states. -/
def propagate (ops : ChanOps X Y St Re Sa) (s : Scn) (reals : List Re) (states : List St)
    (tx : List X) : Except PyErr (List (List (Option Y))) :=
  if tx.length ≠ s.devices.length then .error .value
  else match outerLoop ops s reals states tx (min s.devices.length states.length) with
    | .error e => .error e
    | .ok m => .ok ((List.range s.devices.length).map (fun i =>
        (List.range s.devices.length).map (fun j => m i j)))

/-- **C37** (count): a wrong number of transmissions is refused. -/
theorem C37_wrong_count (ops : ChanOps X Y St Re Sa) (s : Scn) (reals : List Re) (states : List St)
    (tx : List X) (h : tx.length ≠ s.devices.length) : propagate ops s reals states tx = .error .value := by
  unfold propagate
  rw [if_pos h]

/-- The realization linking the devices at two positions. -/
def Linked (s : Scn) (reals : List Re) (i j : Nat) (re : Re) : Prop :=
  ∃ a b c k : Nat, s.devices[i]? = some a ∧ s.devices[j]? = some b ∧ channel s a b = .ok c ∧
    s.channels[k]? = some c ∧ reals[k]? = some re

/-- What the entry for the transmitter `j` and the receiver `i` should be: the transmission over the
realization of the channel linking both, sampled by the later device and reciprocal for the earlier
one. -/
def Entry (ops : ChanOps X Y St Re Sa) (s : Scn) (reals : List Re) (states : List St) (tx : List X)
    (i j : Nat) (y : Y) : Prop :=
  ∃ re si sj x, Linked s reals i j re ∧ states[i]? = some si ∧ states[j]? = some sj ∧ tx[j]? = some x ∧
    y = if i ≤ j then ops.prop (ops.sample re sj si) x
        else ops.prop (ops.recip re (ops.sample re si sj) sj si) x

theorem indexOf_ok {l : List Nat} {c : Nat} (h : c ∈ l) :
    ∃ i, indexOf l c = .ok i ∧ l[i]? = some c := by
  unfold indexOf
  cases hf : l.findIdx? (· == c) with
  | none =>
    rw [List.findIdx?_eq_none_iff] at hf
    have := hf c h
    simp at this
  | some i =>
    refine ⟨i, rfl, ?_⟩
    rw [List.findIdx?_eq_some_iff_getElem] at hf
    obtain ⟨hlt, he, _⟩ := hf
    rw [List.getElem?_eq_getElem hlt]
    simpa using he

/-- Everything the loops need. -/
structure Ready (s : Scn) (reals : List Re) (states : List St) (tx : List X) : Prop where
  states : states.length = s.devices.length
  tx : tx.length = s.devices.length
  listed : ∀ a b c, channel s a b = .ok c → c ∈ s.channels
  reals : reals.length = s.channels.length

theorem Linked.symm {s : Scn} {reals : List Re} {i j : Nat} {re : Re} (h : Linked s reals i j re) :
    Linked s reals j i re := by
  obtain ⟨a, b, c, k, h1, h2, h3, h4, h5⟩ := h
  exact ⟨b, a, c, k, h2, h1, by rw [C36_symmetric]; exact h3, h4, h5⟩

theorem propagatePair_ok (ops : ChanOps X Y St Re Sa) {s : Scn} {reals : List Re} {states : List St}
    {tx : List X} (rd : Ready s reals states tx) (α β : Nat) (hβ : β ≤ α) (hα : α < s.devices.length)
    (m : Nat → Nat → Option Y) :
    ∃ m' y z, propagatePair ops s reals states tx α β m = .ok m' ∧
      Entry ops s reals states tx β α y ∧ Entry ops s reals states tx α β z ∧
      ∀ i j, m' i j = if i = β ∧ j = α then some y else if i = α ∧ j = β then some z else m i j := by
  have hs := rd.states
  have ht := rd.tx
  have e1 : s.devices[α]? = some s.devices[α] := List.getElem?_eq_getElem hα
  have hβ' : β < s.devices.length := by omega
  have e2 : s.devices[β]? = some s.devices[β] := List.getElem?_eq_getElem hβ'
  have e3 : states[α]? = some (states[α]'(by omega)) := List.getElem?_eq_getElem _
  have e4 : states[β]? = some (states[β]'(by omega)) := List.getElem?_eq_getElem _
  have e5 : tx[α]? = some (tx[α]'(by omega)) := List.getElem?_eq_getElem _
  have e6 : tx[β]? = some (tx[β]'(by omega)) := List.getElem?_eq_getElem _
  generalize s.devices[α] = a at e1
  generalize s.devices[β] = b at e2
  generalize states[α]'(by omega) = sa at e3
  generalize states[β]'(by omega) = sb at e4
  generalize tx[α]'(by omega) = xa at e5
  generalize tx[β]'(by omega) = xb at e6
  have hc : ∃ c, channel s a b = .ok c := by
    have h1 : a ∈ s.devices := List.mem_of_getElem? e1
    have h2 : b ∈ s.devices := List.mem_of_getElem? e2
    unfold channel
    rw [if_neg (by simpa using h1), if_neg (by simpa using h2)]
    exact ⟨_, rfl⟩
  obtain ⟨c, hc⟩ := hc
  obtain ⟨k, hk, hk'⟩ := indexOf_ok (rd.listed a b c hc)
  have hklt : k < s.channels.length := by
    by_contra hcon
    rw [List.getElem?_eq_none (by omega)] at hk'; cases hk'
  have e7 : reals[k]? = some (reals[k]'(by rw [rd.reals]; exact hklt)) := List.getElem?_eq_getElem _
  generalize reals[k]'(by rw [rd.reals]; exact hklt) = re at e7
  have lk : Linked s reals α β re := ⟨a, b, c, k, e1, e2, hc, hk', e7⟩
  have E1 : Entry ops s reals states tx β α (ops.prop (ops.sample re sa sb) xa) :=
    ⟨re, sb, sa, xa, lk.symm, e4, e3, e5, by rw [if_pos hβ]⟩
  by_cases hab : α = β
  · subst hab
    rw [e1] at e2
    cases e2
    rw [e3] at e4
    cases e4
    refine ⟨_, _, _, by simp only [propagatePair, e1, e3, e5, hc, hk, e7, if_true]; rfl, E1, E1, ?_⟩
    intro i j
    by_cases h : i = α ∧ j = α <;> simp [h]
  · refine ⟨_, _, ops.prop (ops.recip re (ops.sample re sa sb) sb sa) xb, by
      simp only [propagatePair, e1, e2, e3, e4, e5, e6, hc, hk, e7, hab, if_false]; rfl, E1, ?_, ?_⟩
    · exact ⟨re, sa, sb, xb, lk, e3, e4, e6, by rw [if_neg (by omega)]⟩
    · intro i j
      by_cases h1 : i = β ∧ j = α
      · rw [if_pos h1, if_neg (by rintro ⟨rfl, rfl⟩; omega), if_pos h1]
      · rw [if_neg h1]
        by_cases h2 : i = α ∧ j = β
        · rw [if_pos h2, if_neg h1]
        · rw [if_neg h2, if_neg h1]

theorem innerLoop_ok (ops : ChanOps X Y St Re Sa) {s : Scn} {reals : List Re} {states : List St}
    {tx : List X} (rd : Ready s reals states tx) (α : Nat) (hα : α < s.devices.length)
    (m : Nat → Nat → Option Y) (n : Nat) (hn : n ≤ α + 1) :
    ∃ m', innerLoop ops s reals states tx α m n = .ok m' ∧
      (∀ β, β < n → (∃ y, m' β α = some y ∧ Entry ops s reals states tx β α y) ∧
        (∃ z, m' α β = some z ∧ Entry ops s reals states tx α β z)) ∧
      (∀ i j, i < α → j < α → m' i j = m i j) := by
  induction n with
  | zero => exact ⟨m, rfl, fun _ h => absurd h (by omega), fun _ _ _ _ => rfl⟩
  | succ n ih =>
    obtain ⟨m1, h1, h2, h3⟩ := ih (by omega)
    obtain ⟨m2, y, z, h4, hy, hz, h5⟩ := propagatePair_ok ops rd α n (by omega) hα m1
    refine ⟨m2, by simp only [innerLoop, h1, h4], ?_, ?_⟩
    · intro β hβ
      by_cases hb : β = n
      · subst hb
        refine ⟨⟨y, by rw [h5]; simp, hy⟩, ?_⟩
        by_cases ha : α = β
        · subst ha
          exact ⟨y, by rw [h5]; simp, hy⟩
        · exact ⟨z, by rw [h5, if_neg (by rintro ⟨rfl, _⟩; exact ha rfl), if_pos ⟨rfl, rfl⟩], hz⟩
      · obtain ⟨⟨y', e1, e2⟩, ⟨z', e3, e4⟩⟩ := h2 β (by omega)
        refine ⟨⟨y', ?_, e2⟩, ⟨z', ?_, e4⟩⟩
        · rw [h5, if_neg (by rintro ⟨rfl, _⟩; exact hb rfl), if_neg (by rintro ⟨rfl, e⟩; omega)]; exact e1
        · rw [h5, if_neg (by rintro ⟨rfl, e⟩; omega), if_neg (by rintro ⟨_, rfl⟩; exact hb rfl)]; exact e3
    · intro i j hi hj
      rw [h5, if_neg (by rintro ⟨_, rfl⟩; omega), if_neg (by rintro ⟨rfl, _⟩; omega)]
      exact h3 i j hi hj

theorem outerLoop_ok (ops : ChanOps X Y St Re Sa) {s : Scn} {reals : List Re} {states : List St}
    {tx : List X} (rd : Ready s reals states tx) (n : Nat) (hn : n ≤ s.devices.length) :
    ∃ m, outerLoop ops s reals states tx n = .ok m ∧
      ∀ i j, i < n → j < n → ∃ y, m i j = some y ∧ Entry ops s reals states tx i j y := by
  induction n with
  | zero => exact ⟨_, rfl, fun _ _ h => absurd h (by omega)⟩
  | succ n ih =>
    obtain ⟨m, h1, h2⟩ := ih (by omega)
    obtain ⟨m', h3, h4, h5⟩ := innerLoop_ok ops rd n (by omega) m (n + 1) le_rfl
    refine ⟨m', by simp only [outerLoop, h1, h3], ?_⟩
    intro i j hi hj
    by_cases hin : i = n
    · subst hin
      exact (h4 j (by omega)).2
    · by_cases hjn : j = n
      · subst hjn
        exact (h4 i (by omega)).1
      · rw [h5 i j (by omega) (by omega)]
        exact h2 i j (by omega) (by omega)

/-- **C37**: with one state per device and one realization per channel of the scenario, `propagate`
returns an n × n matrix whose entry for receiver `i` and transmitter `j` is the transmission of `j`
over the realization of the channel linking both; the two directions of a pair use the same
realization, one by `sample`, the other by `reciprocal_sample` of that sample.  The channels must be
listed, which C36 grants unless the default channel was set and replaced. -/
theorem C37_matrix (ops : ChanOps X Y St Re Sa) (s : Scn) (reals : List Re) (states : List St)
    (tx : List X) (htx : tx.length = s.devices.length) (hst : states.length = s.devices.length)
    (hre : reals.length = s.channels.length)
    (hls : ∀ a b c, channel s a b = .ok c → c ∈ s.channels) :
    ∃ M, propagate ops s reals states tx = .ok M ∧ M.length = s.devices.length ∧
      (∀ row ∈ M, row.length = s.devices.length) ∧
      ∀ i j, i < s.devices.length → j < s.devices.length →
        ∃ row y, M[i]? = some row ∧ row[j]? = some (some y) ∧ Entry ops s reals states tx i j y := by
  obtain ⟨m, h1, h2⟩ := outerLoop_ok ops (⟨hst, htx, hls, hre⟩ : Ready s reals states tx)
    s.devices.length le_rfl
  refine ⟨_, by unfold propagate; rw [if_neg (by simpa using htx), hst, min_self, h1], by simp, by simp, ?_⟩
  intro i j hi hj
  obtain ⟨y, hy, he⟩ := h2 i j hi hj
  refine ⟨(List.range s.devices.length).map (fun j => m i j), y, by simp [hi], by simp [hj, hy], he⟩

/-- **C37** fails once the default channel is set for one pair and replaced: `propagate` raises for
any realizations. -/
theorem C37_default_dropped_fails (ops : ChanOps X Y St Re Sa) (reals : List Re) (states : List St)
    (tx : List X) (hst : states.length = 3) (htx : tx.length = 3) :
    propagate ops (runLinks (Scn.new 9) dropsDefault) reals states tx = .error .value := by
  match states, tx, hst, htx with
  | [s0, s1, s2], [x0, x1, x2], _, _ => rfl

/-- States missing at the end of the list leave entries of the matrix empty without an error. -/
theorem C37_short_states_fails (ops : ChanOps X Y St Re Sa) (re : Re) (s0 : St) (x0 x1 : X) :
    propagate ops (runLinks (Scn.new 9) [.add 0, .add 1]) [re] [s0] [x0, x1] =
      .ok [[some (ops.prop (ops.sample re s0 s0) x0), none], [none, none]] := rfl

/-- Two devices over the default channel, with numbers as states and signals. -/
example : propagate (⟨fun r a b => r * 100 + a * 10 + b, fun r s _ _ => r + s, fun s x => s + x * 1000⟩ :
      ChanOps Nat Nat Nat Nat Nat) (runLinks (Scn.new 9) [.add 0, .add 1]) [3] [1, 2] [5, 6] =
    .ok [[some 5311, some 6321], [some 5324, some 6322]] := by rfl

end Propagate

end Verif.Sim
