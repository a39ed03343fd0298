import Verif.Signal.Dense

/-!
# C33, C34, C50: operator slots, device input and device output

`core/device.py`.  Operators are compared by identity, modelled as equality of an arbitrary type.
Signals are dense, of equal sampling rate and carrier frequency (see `Verif.Signal.Dense`).
-/

namespace Verif.Core

open Verif.Signal

/-! ### Slots -/

section Slots

variable {α : Type} [DecidableEq α]

/-- `DSPSlot.add`, `core/device.py` 804-819. -/
def slotAdd (s : List α) (x : α) : List α := if x ∈ s then s else s ++ [x]

/-- `DSPSlot.remove`, `core/device.py` 821-830; `list.remove` deletes the first occurrence. -/
def slotRemove (s : List α) (x : α) : List α := if x ∈ s then s.erase x else s

/-- A call on a slot. -/
inductive SlotOp (α : Type)
  | add (x : α)
  | remove (x : α)

/-- Effect of one call. -/
def slotStep (s : List α) : SlotOp α → List α
  | .add x => slotAdd s x
  | .remove x => slotRemove s x

/-- A slot is created empty, `core/device.py` 770-780. -/
def slotRun (h : List (SlotOp α)) : List α := h.foldl slotStep []

/-- `DSPSlot.operator_index`, `core/device.py` 792-802. -/
def operatorIndex (s : List α) (x : α) : Except PyErr Nat :=
  if x ∈ s then .ok (s.idxOf x) else .error .value

/-- `ReceiverSlot.min_num_samples_per_frame`, `core/device.py` 1055-1073; `spf` is the samples per
frame of every operator for the given bandwidth and oversampling factor. -/
def minNumSamples (s : List α) (spf : α → Nat) : Nat := s.foldl (fun a d => max a (spf d)) 0

/-- What a DSP algorithm is an instance of. -/
structure DspKind where
  isTx : Bool
  isRx : Bool

/-- A call that changes the slots of a device. -/
inductive DevOp (α : Type)
  | addDsp (x : α)
  | tx (o : SlotOp α)
  | rx (o : SlotOp α)

/-- `Device.add_dsp`, `core/device.py` 1352-1368, and the calls on `device.transmitters` and
`device.receivers`. The state holds the transmit and the receive slot. -/
def devStep (kind : α → DspKind) (s : List α × List α) : DevOp α → List α × List α
  | .addDsp x =>
      (if (kind x).isTx then slotAdd s.1 x else s.1, if (kind x).isRx then slotAdd s.2 x else s.2)
  | .tx o => (slotStep s.1 o, s.2)
  | .rx o => (s.1, slotStep s.2 o)

/-- Slots of a device after a history of calls. -/
def devRun (kind : α → DspKind) (h : List (DevOp α)) : List α × List α :=
  h.foldl (devStep kind) ([], [])

/-- Call `p` of the history inserted `x`, and `x` has not been removed since. -/
def InsertedAt (h : List (SlotOp α)) (x : α) (p : Nat) : Prop :=
  h[p]? = some (SlotOp.add x) ∧ (∀ j : Nat, p < j → h[j]? ≠ some (SlotOp.remove x)) ∧
    ∀ j : Nat, j < p → h[j]? = some (SlotOp.add x) → ∃ i : Nat, j < i ∧ i < p ∧ h[i]? = some (SlotOp.remove x)

theorem slotRun_snoc (h : List (SlotOp α)) (o : SlotOp α) :
    slotRun (h ++ [o]) = slotStep (slotRun h) o := by
  unfold slotRun; rw [List.foldl_append]; rfl

theorem slotRun_nodup (h : List (SlotOp α)) : (slotRun h).Nodup := by
  induction h using List.reverseRecOn with
  | nil => exact List.nodup_nil
  | append_singleton h o ih =>
    rw [slotRun_snoc]
    cases o with
    | add x =>
      simp only [slotStep, slotAdd]
      split
      · exact ih
      · rename_i hx
        rw [List.nodup_append]
        refine ⟨ih, List.nodup_singleton x, ?_⟩
        intro a ha b hb hab
        rw [List.mem_singleton] at hb
        exact hx (by rw [← hb, ← hab]; exact ha)
    | remove x =>
      simp only [slotStep, slotRemove]
      split
      · exact ih.erase x
      · exact ih

theorem getElem?_snoc {β : Type} (h : List β) (o : β) (j : Nat) :
    (h ++ [o])[j]? = if j < h.length then h[j]? else if j = h.length then some o else none := by
  rw [List.getElem?_append]
  split
  · rfl
  · split
    · rename_i h1; simp [h1]
    · rename_i h1 h2; rw [List.getElem?_eq_none]; simp; omega

theorem lt_of_getElem?_some {β : Type} {h : List β} {j : Nat} {o : β} (e : h[j]? = some o) :
    j < h.length := by
  by_contra hc
  rw [List.getElem?_eq_none (by omega)] at e
  exact absurd e (by simp)

theorem mem_slotRun (h : List (SlotOp α)) (x : α) :
    x ∈ slotRun h ↔ ∃ i : Nat, h[i]? = some (SlotOp.add x) ∧ ∀ j : Nat, i < j → h[j]? ≠ some (SlotOp.remove x) := by
  induction h using List.reverseRecOn with
  | nil => simp [slotRun]
  | append_singleton h o ih =>
    rw [slotRun_snoc]
    have key : (∃ i : Nat, (h ++ [o])[i]? = some (SlotOp.add x) ∧
        ∀ j : Nat, i < j → (h ++ [o])[j]? ≠ some (SlotOp.remove x)) ↔
        (o = .add x ∨ (o ≠ .remove x ∧
          ∃ i : Nat, h[i]? = some (SlotOp.add x) ∧ ∀ j : Nat, i < j → h[j]? ≠ some (SlotOp.remove x))) := by
      constructor
      · rintro ⟨i, h1, h2⟩
        rw [getElem?_snoc] at h1
        split at h1
        · rename_i hi
          right
          refine ⟨?_, i, h1, fun j hj => ?_⟩
          · have := h2 h.length hi
            rw [getElem?_snoc] at this
            simp only [Nat.lt_irrefl, if_false, if_true] at this
            intro hc; exact this (by rw [hc])
          · intro hc
            have := h2 j hj
            rw [getElem?_snoc, if_pos (lt_of_getElem?_some hc)] at this
            exact this hc
        · split at h1
          · left; simpa using h1
          · exact absurd h1 (by simp)
      · rintro (h1 | ⟨h1, i, h2, h3⟩)
        · refine ⟨h.length, ?_, fun j hj => ?_⟩
          · rw [getElem?_snoc, if_neg (Nat.lt_irrefl _), if_pos rfl, h1]
          · rw [getElem?_snoc, if_neg (by omega), if_neg (by omega)]; simp
        · refine ⟨i, ?_, fun j hj => ?_⟩
          · rw [getElem?_snoc, if_pos (lt_of_getElem?_some h2), h2]
          · rw [getElem?_snoc]
            split
            · exact h3 j hj
            · split
              · intro hc; exact h1 (by simpa using hc)
              · simp
    rw [key, ← ih]
    cases o with
    | add y =>
      simp only [slotStep, slotAdd, SlotOp.add.injEq]
      split
      · rename_i hy
        constructor
        · intro hx; exact Or.inr ⟨by simp, hx⟩
        · rintro (e | ⟨_, hx⟩)
          · rw [← e]; exact hy
          · exact hx
      · rw [List.mem_append, List.mem_singleton]
        constructor
        · rintro (hx | e)
          · exact Or.inr ⟨by simp, hx⟩
          · exact Or.inl e.symm
        · rintro (e | ⟨_, hx⟩)
          · exact Or.inr e.symm
          · exact Or.inl hx
    | remove y =>
      simp only [slotStep, slotRemove]
      have hnd := slotRun_nodup h
      split
      · rw [hnd.mem_erase_iff]
        constructor
        · rintro ⟨h1, h2⟩
          exact Or.inr ⟨by simpa using fun e => h1 e.symm, h2⟩
        · rintro (e | ⟨h1, h2⟩)
          · exact absurd e (by simp)
          · exact ⟨fun e => h1 (by rw [e]), h2⟩
      · rename_i hy
        constructor
        · intro hx
          refine Or.inr ⟨fun e => hy ?_, hx⟩
          have e' : y = x := by simpa using e
          rw [e']; exact hx
        · rintro (e | ⟨_, hx⟩)
          · exact absurd e (by simp)
          · exact hx

theorem insertedAt_snoc {h : List (SlotOp α)} {o : SlotOp α} {x : α} {p : Nat}
    (ho : o ≠ .remove x) (hp : InsertedAt h x p) : InsertedAt (h ++ [o]) x p := by
  obtain ⟨h1, h2, h3⟩ := hp
  have hl := lt_of_getElem?_some h1
  refine ⟨?_, fun j hj => ?_, fun j hj hx => ?_⟩
  · rw [getElem?_snoc, if_pos hl, h1]
  · rw [getElem?_snoc]
    split
    · exact h2 j hj
    · split
      · intro hc; exact ho (by simpa using hc)
      · simp
  · rw [getElem?_snoc, if_pos (by omega)] at hx
    obtain ⟨i, hi1, hi2, hi3⟩ := h3 j hj hx
    exact ⟨i, hi1, hi2, by rw [getElem?_snoc, if_pos (by omega), hi3]⟩

/-- C33: after any history of insertions and removals a slot lists no operator twice, lists exactly
the operators inserted and not removed since, and lists them in the order of the calls that
inserted them: there are call numbers, one per listed operator and increasing along the list, of an
insertion that found the operator absent and was not followed by a removal. -/
theorem C33_slot_history (h : List (SlotOp α)) :
    (slotRun h).Nodup ∧
    (∀ x, x ∈ slotRun h ↔
      ∃ i : Nat, h[i]? = some (SlotOp.add x) ∧ ∀ j : Nat, i < j → h[j]? ≠ some (SlotOp.remove x)) ∧
    ∃ pos : α → Nat, (∀ x ∈ slotRun h, InsertedAt h x (pos x)) ∧
      (slotRun h).Pairwise (fun x y => pos x < pos y) := by
  refine ⟨slotRun_nodup h, mem_slotRun h, ?_⟩
  induction h using List.reverseRecOn with
  | nil => exact ⟨fun _ => 0, by simp [slotRun], by simp [slotRun]⟩
  | append_singleton h o ih =>
    obtain ⟨pos, h1, h2⟩ := ih
    rw [slotRun_snoc]
    cases o with
    | add x =>
      simp only [slotStep, slotAdd]
      split
      · exact ⟨pos, fun y hy => insertedAt_snoc (by simp) (h1 y hy), h2⟩
      · rename_i hx
        have hne : ∀ y ∈ slotRun h, y ≠ x := fun y hy e => hx (e ▸ hy)
        refine ⟨fun y => if y = x then h.length else pos y, ?_, ?_⟩
        · intro y hy
          rw [List.mem_append, List.mem_singleton] at hy
          rcases hy with hy | rfl
          · beta_reduce; rw [if_neg (hne y hy)]
            exact insertedAt_snoc (by simp) (h1 y hy)
          · beta_reduce; rw [if_pos rfl]
            refine ⟨?_, fun j hj => ?_, fun j hj hc => ?_⟩
            · rw [getElem?_snoc, if_neg (Nat.lt_irrefl _), if_pos rfl]
            · rw [getElem?_snoc, if_neg (by omega), if_neg (by omega)]; simp
            · rw [getElem?_snoc, if_pos hj] at hc
              rw [mem_slotRun] at hx
              push Not at hx
              obtain ⟨i, hi1, hi2⟩ := hx j hc
              have hl := lt_of_getElem?_some hi2
              exact ⟨i, hi1, hl, by rw [getElem?_snoc, if_pos hl, hi2]⟩
        · rw [List.pairwise_append]
          refine ⟨?_, List.pairwise_singleton _ _, ?_⟩
          · refine h2.imp_of_mem ?_
            intro a b ha hb hab
            beta_reduce; rw [if_neg (hne a ha), if_neg (hne b hb)]; exact hab
          · intro a ha b hb
            rw [List.mem_singleton] at hb
            beta_reduce; rw [if_neg (hne a ha), if_pos hb]
            exact lt_of_getElem?_some (h1 a ha).1
    | remove x =>
      have hnd := slotRun_nodup h
      have hsub : ∀ y ∈ slotStep (slotRun h) (SlotOp.remove x), y ∈ slotRun h ∧ y ≠ x := by
        intro y hy
        simp only [slotStep, slotRemove] at hy
        split at hy
        · rw [hnd.mem_erase_iff] at hy; exact ⟨hy.2, hy.1⟩
        · rename_i hx; exact ⟨hy, fun e => hx (e ▸ hy)⟩
      refine ⟨pos, fun y hy => insertedAt_snoc ?_ (h1 y (hsub y hy).1), ?_⟩
      · intro e; exact (hsub y hy).2 (by simpa using e.symm)
      · simp only [slotStep, slotRemove]
        split
        · exact h2.sublist List.erase_sublist
        · exact h2

example : slotRun [SlotOp.add 3, .add 1, .add 3, .remove 3, .add 2, .add 3, .remove 7] = [1, 2, 3] :=
  by decide

/-- C33: adding an operator already registered and removing an operator that is not changes
nothing; an added operator is found at its index, a removed one is not. -/
theorem C33_slot_calls (s : List α) (hs : s.Nodup) (x : α) :
    (x ∈ s → slotAdd s x = s) ∧ (x ∉ s → slotRemove s x = s) ∧
    (∃ i, operatorIndex (slotAdd s x) x = .ok i ∧ (slotAdd s x)[i]? = some x) ∧
    operatorIndex (slotRemove s x) x = .error .value ∧
    (∀ y, y ≠ x → (y ∈ slotRemove s x ↔ y ∈ s)) := by
  have hin : x ∈ slotAdd s x := by
    unfold slotAdd; split
    · assumption
    · simp
  refine ⟨fun h => if_pos h, fun h => if_neg h, ?_, ?_, ?_⟩
  · refine ⟨_, if_pos hin, ?_⟩
    have := List.idxOf_lt_length_of_mem hin
    rw [List.getElem?_eq_getElem this, List.getElem_idxOf this]
  · have : x ∉ slotRemove s x := by
      unfold slotRemove; split
      · rw [hs.mem_erase_iff]; simp
      · assumption
    exact if_neg this
  · intro y hy
    unfold slotRemove; split
    · rw [List.mem_erase_of_ne hy]
    · rfl

example : (slotRun [SlotOp.add 3, .add 1]).Nodup ∧ 3 ∈ slotRun [SlotOp.add 3, .add 1] := by decide

/-- Calls of a device history that reach the transmit slot. -/
def txCalls (kind : α → DspKind) : DevOp α → List (SlotOp α)
  | .addDsp x => if (kind x).isTx then [.add x] else []
  | .tx o => [o]
  | .rx _ => []

/-- Calls of a device history that reach the receive slot. -/
def rxCalls (kind : α → DspKind) : DevOp α → List (SlotOp α)
  | .addDsp x => if (kind x).isRx then [.add x] else []
  | .tx _ => []
  | .rx o => [o]

/-- C33: the slots of a device change only through the calls meant for them: both are what their
own calls make of an empty slot, so `C33_slot_history` applies to both after any device history. -/
theorem C33_device_history (kind : α → DspKind) (h : List (DevOp α)) :
    devRun kind h = (slotRun (h.flatMap (txCalls kind)), slotRun (h.flatMap (rxCalls kind))) := by
  induction h using List.reverseRecOn with
  | nil => rfl
  | append_singleton h o ih =>
    have e : devRun kind (h ++ [o]) = devStep kind (devRun kind h) o := by
      unfold devRun; rw [List.foldl_append]; rfl
    rw [e, ih, List.flatMap_append, List.flatMap_append]
    unfold slotRun
    rw [List.foldl_append, List.foldl_append]
    cases o with
    | addDsp x =>
      simp only [devStep, List.flatMap_cons, List.flatMap_nil, List.append_nil, txCalls, rxCalls]
      refine Prod.ext ?_ ?_
      · dsimp only; split <;> rfl
      · dsimp only; split <;> rfl
    | tx o => rfl
    | rx o => rfl

theorem foldl_max_ge (spf : α → Nat) (s : List α) (a : Nat) :
    a ≤ s.foldl (fun a d => max a (spf d)) a ∧
    (∀ d ∈ s, spf d ≤ s.foldl (fun a d => max a (spf d)) a) ∧
    (s.foldl (fun a d => max a (spf d)) a = a ∨
      ∃ d ∈ s, s.foldl (fun a d => max a (spf d)) a = spf d) := by
  induction s generalizing a with
  | nil => simp
  | cons x s ih =>
    obtain ⟨h1, h2, h3⟩ := ih (max a (spf x))
    rw [List.foldl_cons]
    refine ⟨by omega, ?_, ?_⟩
    · intro d hd
      rcases List.mem_cons.mp hd with rfl | hd
      · omega
      · exact h2 d hd
    · rcases h3 with h3 | ⟨d, hd, h3⟩
      · rw [h3]
        rcases Nat.le_total a (spf x) with h | h
        · right; exact ⟨x, List.mem_cons_self, by omega⟩
        · left; omega
      · right; exact ⟨d, List.mem_cons_of_mem _ hd, h3⟩

/-- C33: after any history the number of samples required by a slot suffices for every registered
operator and is what one of them requires; it is zero if none is registered. -/
theorem C33_min_samples (h : List (SlotOp α)) (spf : α → Nat) :
    (∀ d ∈ slotRun h, spf d ≤ minNumSamples (slotRun h) spf) ∧
    (slotRun h ≠ [] → ∃ d ∈ slotRun h, minNumSamples (slotRun h) spf = spf d) ∧
    (slotRun h = [] → minNumSamples (slotRun h) spf = 0) := by
  obtain ⟨_, h2, h3⟩ := foldl_max_ge spf (slotRun h) 0
  refine ⟨h2, fun hne => ?_, fun e => by rw [e]; rfl⟩
  rcases h3 with h3 | h3
  · obtain ⟨d, hd⟩ := List.exists_mem_of_ne_nil _ hne
    refine ⟨d, hd, ?_⟩
    have := h2 d hd
    unfold minNumSamples; omega
  · exact h3

example : minNumSamples (slotRun [SlotOp.add 3, .add 8, .remove 8, .add 5]) id = 5 := by decide

end Slots

/-! ### Device input -/

/-- Ports selected by an operator; `none` stands for all. -/
abbrev Ports := Option (List Nat)

/-- `signal[selector, :]`, a list of row numbers or `slice(None)`; `IndexError` if out of range. -/
def Arr.selectRows (d : Arr) : Ports → Except PyErr Arr
  | none => .ok d
  | some l => if ∀ i ∈ l, i < d.M then .ok ⟨l.length, d.N, fun m n => d.x (l.getD m 0) n⟩
      else .error .index

/-- Selected rows of a signal; numpy keeps the other attributes. -/
def Dense.selectRows (s : Dense) (p : Ports) : Except PyErr Dense := do
  let a ← Arr.selectRows s.a p
  .ok { s with a := a }

/-- `Signal.Empty(rate, streams)`, `signal_model.py` 912-920. -/
def emptySignal (rate : ℚ) (M : Nat) : Dense := ⟨Arr.zeros M 0, rate, 0⟩

/-- A device as far as `process_input` reads it. -/
structure RxDevice where
  rate : ℚ
  /-- `antennas.num_receive_antennas` -/
  antennas : Nat
  /-- `num_receive_rf_ports` -/
  rfPorts : Nat
  /-- `receive_coding.decode_streams` -/
  decode : Dense → Except PyErr Dense
  /-- `selected_receive_ports` of all registered receivers -/
  receivers : List Ports

/-- The loop over the impinging signals, `core/device.py` 1516-1523: the value returned by
`superimpose` is dropped, and the empty signal is not modified by it (`signal_model.py` 1459). -/
def superimposeDropped (e : Dense) : List Dense → Except PyErr Dense
  | [] => .ok e
  | v :: vs => do
      let _ ← e.superimpose v
      superimposeDropped e vs

/-- `Device.process_input`, `core/device.py` 1481-1554.  Returns the inputs of all receivers. -/
def processInput (d : RxDevice) (impinging : List Dense) : Except PyErr (List Dense) := do
  let s ← if impinging.length ≠ 1 then superimposeDropped (emptySignal d.rate d.antennas) impinging
    else .ok (impinging.headD (emptySignal d.rate d.antennas))
  if s.a.M ≠ d.rfPorts then .error .runtime
  else do
    let dec ← d.decode s
    d.receivers.mapM (Dense.selectRows dec)

/-- The check of `Receiver.receive`, `core/device.py` 685-692: the number of streams must be the
number of selected ports, or of all digital ports. -/
def receiveCheck (dspPorts : Nat) (p : Ports) (s : Dense) : Except PyErr Unit :=
  if s.a.M ≠ (match p with | none => dspPorts | some l => l.length) then .error .value else .ok ()

/-- `Device.receive_operators`, `core/device.py` 1556-1603, as far as the checks go. -/
def receiveOperators (dspPorts : Nat) (receivers : List Ports) (inputs : List Dense) :
    Except PyErr Unit :=
  if inputs.length ≠ receivers.length then .error .value
  else (receivers.zip inputs).forM (fun x => receiveCheck dspPorts x.1 x.2)

theorem mapM_ok {α β : Type} (f : α → Except PyErr β) (g : α → β) (l : List α)
    (h : ∀ x ∈ l, f x = .ok (g x)) : l.mapM f = .ok (l.map g) := by
  induction l with
  | nil => rfl
  | cons x l ih =>
    rw [List.mapM_cons, h x List.mem_cons_self, ih (fun y hy => h y (List.mem_cons_of_mem _ hy))]
    rfl

/-- Selected rows of a signal whose rows all exist. -/
def Dense.rows (s : Dense) : Ports → Dense
  | none => s
  | some l => { s with a := ⟨l.length, s.a.N, fun m n => s.a.x (l.getD m 0) n⟩ }

theorem selectRows_ok (s : Dense) (p : Ports) (h : ∀ l, p = some l → ∀ i ∈ l, i < s.a.M) :
    Dense.selectRows s p = .ok (Dense.rows s p) := by
  cases p with
  | none => rfl
  | some l => simp only [Dense.selectRows, Arr.selectRows, if_pos (h l rfl)]; rfl

/-- C34 for one impinging signal with as many streams as there are receive ports: every receiver
gets, in the order of registration, the decoded signal's streams at the ports it selected, all of
them if it selected none, sample by sample, and the receivers' own checks pass.  Missing for the full
claim: several impinging signals (`C34_superposition_fails`). -/
theorem C34_process_input_partial (d : RxDevice) (v dec : Dense) (hM : v.a.M = d.rfPorts)
    (hdec : d.decode v = .ok dec)
    (hp : ∀ p ∈ d.receivers, ∀ l, p = some l → ∀ i ∈ l, i < dec.a.M) :
    ∃ ins, processInput d [v] = .ok ins ∧ ins.length = d.receivers.length ∧
      (∀ (k : Nat) (p : Ports) (s : Dense), d.receivers[k]? = some p → ins[k]? = some s →
        s.a.N = dec.a.N ∧ s.rate = dec.rate ∧ s.delay = dec.delay ∧
        (p = none → s.a.M = dec.a.M ∧ ∀ m n, s.a.get m n = dec.a.get m n) ∧
        (∀ l, p = some l → s.a.M = l.length ∧
          ∀ (m i n : Nat), l[m]? = some i → s.a.get m n = dec.a.get i n)) ∧
      receiveOperators dec.a.M d.receivers ins = .ok () := by
  have e : processInput d [v] = .ok (d.receivers.map (Dense.rows dec)) := by
    unfold processInput
    simp only [List.length_singleton, ne_eq, not_true_eq_false, if_false, List.headD_cons]
    show (if ¬v.a.M = d.rfPorts then _ else _) = _
    rw [if_neg (by simp [hM]), hdec]
    exact mapM_ok _ _ _ (fun p hp' => selectRows_ok dec p (hp p hp'))
  refine ⟨_, e, by simp, ?_, ?_⟩
  · intro k p s hk hs
    rw [List.getElem?_map, hk] at hs
    have hs : Dense.rows dec p = s := by simpa using hs
    subst hs
    cases p with
    | none => exact ⟨rfl, rfl, rfl, fun _ => ⟨rfl, fun _ _ => rfl⟩, fun l hl => by simp at hl⟩
    | some l =>
      refine ⟨rfl, rfl, rfl, fun h => by simp at h, ?_⟩
      rintro _ ⟨⟩
      refine ⟨rfl, fun m i n hi => ?_⟩
      have hm : m < l.length := lt_of_getElem?_some hi
      have hi' : l.getD m 0 = i := by rw [List.getD_eq_getElem?_getD, hi]; rfl
      have hin : i ∈ l := by
        rw [List.getElem?_eq_getElem hm] at hi
        have : l[m] = i := by simpa using hi
        rw [← this]; exact List.getElem_mem hm
      have hi3 := hp _ (List.mem_of_getElem? hk) l rfl i hin
      unfold Arr.get Dense.rows
      dsimp only
      by_cases hn : n < dec.a.N
      · rw [if_pos ⟨hm, hn⟩, if_pos ⟨hi3, hn⟩, hi']
      · rw [if_neg (by omega), if_neg (by omega)]
  · unfold receiveOperators
    rw [if_neg (by simp)]
    have : ∀ L : List Ports, (L.zip (L.map (Dense.rows dec))).forM
        (fun x => receiveCheck dec.a.M x.1 x.2) = Except.ok () := by
      intro L
      induction L with
      | nil => rfl
      | cons p L ih =>
        rw [List.map_cons, List.zip_cons_cons]
        show (receiveCheck dec.a.M p (Dense.rows dec p) >>= fun _ => _) = _
        have : receiveCheck dec.a.M p (Dense.rows dec p) = .ok () := by
          cases p <;> simp [receiveCheck, Dense.rows]
        rw [this]; exact ih
    exact this d.receivers

/-- A two-port device with a receiver on port one and a receiver on all ports. -/
def demoRx : RxDevice := ⟨1, 2, 2, fun s => .ok s, [some [1], none]⟩

/-- Signal of two streams and one sample. -/
def demoV : Dense := ⟨⟨2, 1, fun m _ => m + 1⟩, 1, 0⟩

example : demoV.a.M = demoRx.rfPorts ∧ demoRx.decode demoV = .ok demoV ∧
    ∀ p ∈ demoRx.receivers, ∀ l, p = some l → ∀ i ∈ l, i < demoV.a.M := by
  refine ⟨rfl, rfl, ?_⟩
  intro p hp l hl i hi
  simp only [demoRx, List.mem_cons, List.not_mem_nil, or_false] at hp
  rcases hp with rfl | rfl
  · simp only [Option.some.injEq] at hl; subst hl; simp at hi; subst hi; decide
  · simp at hl

/-- C34: a single signal with another number of streams than the device has ports is refused. -/
theorem C34_wrong_streams (d : RxDevice) (v : Dense) (h : v.a.M ≠ d.rfPorts) :
    processInput d [v] = .error .runtime := by
  unfold processInput
  simp only [List.length_singleton, ne_eq, not_true_eq_false, if_false, List.headD_cons]
  show (if ¬v.a.M = d.rfPorts then _ else _) = _
  rw [if_pos h]

example : demoV.a.M ≠ (⟨1, 2, 3, fun s => .ok s, []⟩ : RxDevice).rfPorts := by decide

/-- C34: a port beyond the decoded streams is refused. -/
theorem C34_wrong_port (d : RxDevice) (v dec : Dense) (hM : v.a.M = d.rfPorts)
    (hdec : d.decode v = .ok dec) (l : List Nat) (hl : some l ∈ d.receivers) (i : Nat) (hi : i ∈ l)
    (hlt : dec.a.M ≤ i) : ∃ e, processInput d [v] = .error e := by
  unfold processInput
  simp only [List.length_singleton, ne_eq, not_true_eq_false, if_false, List.headD_cons]
  show ∃ e, (if ¬v.a.M = d.rfPorts then _ else _) = _
  rw [if_neg (by simp [hM]), hdec]
  show ∃ e, d.receivers.mapM (Dense.selectRows dec) = .error e
  have hbad : Dense.selectRows dec (some l) = .error .index := by
    simp only [Dense.selectRows, Arr.selectRows]
    rw [if_neg (fun h => absurd (h i hi) (by omega))]; rfl
  generalize d.receivers = L at hl
  induction L with
  | nil => simp at hl
  | cons p L ih =>
    rw [List.mapM_cons]
    cases hp : Dense.selectRows dec p with
    | error e => exact ⟨e, rfl⟩
    | ok s =>
      rcases List.mem_cons.mp hl with rfl | hl
      · rw [hbad] at hp; cases hp
      · obtain ⟨e, he⟩ := ih hl
        rw [he]; exact ⟨e, rfl⟩

example : some [5] ∈ (⟨1, 2, 2, fun s => .ok s, [none, some [5]]⟩ : RxDevice).receivers ∧
    demoV.a.M ≤ 5 := by decide

/-- C34: the receptions are refused unless there is one input per receiver. -/
theorem C34_input_count (P : Nat) (rs : List Ports) (ins : List Dense)
    (h : ins.length ≠ rs.length) : receiveOperators P rs ins = .error .value := if_pos h

example : ([] : List Dense).length ≠ [some [1]].length := by decide

theorem superimposeDropped_eq (rate : ℚ) (M : Nat) (vs : List Dense) :
    superimposeDropped (emptySignal rate M) vs = .ok (emptySignal rate M) := by
  induction vs with
  | nil => rfl
  | cons v vs ih =>
    have : (emptySignal rate M).superimpose v = .ok v := by
      unfold Dense.superimpose
      rw [if_pos (by simp [emptySignal, Arr.zeros])]
    unfold superimposeDropped
    rw [this]
    exact ih

/-- C34 is false for any number of impinging signals but one: whatever the signals hold and however
many streams they have, the device decodes an empty signal instead of their sum, so every receiver
without receive coding gets no samples at all, and no error is raised. -/
theorem C34_superposition_fails (d : RxDevice) (vs : List Dense) (hvs : vs.length ≠ 1)
    (ha : d.antennas = d.rfPorts) (hd : ∀ s, d.decode s = .ok s)
    (hp : ∀ p ∈ d.receivers, ∀ l, p = some l → ∀ i ∈ l, i < d.rfPorts) :
    ∃ ins, processInput d vs = .ok ins ∧ ins.length = d.receivers.length ∧
      ∀ s ∈ ins, s.a.N = 0 ∧ ∀ m n, s.a.get m n = 0 := by
  refine ⟨d.receivers.map (Dense.rows (emptySignal d.rate d.antennas)), ?_, by simp, ?_⟩
  · unfold processInput
    rw [if_pos hvs, superimposeDropped_eq]
    show (if ¬(emptySignal d.rate d.antennas).a.M = d.rfPorts then _ else _) = _
    rw [if_neg (by simp [emptySignal, Arr.zeros, ha]), hd]
    refine mapM_ok _ _ _ (fun p hp' => selectRows_ok _ p ?_)
    intro l hl i hi
    show i < d.antennas
    rw [ha]; exact hp p hp' l hl i hi
  · intro s hs
    rw [List.mem_map] at hs
    obtain ⟨p, _, rfl⟩ := hs
    have hN : (Dense.rows (emptySignal d.rate d.antennas) p).a.N = 0 := by
      cases p <;> rfl
    refine ⟨hN, fun m n => ?_⟩
    unfold Arr.get
    rw [if_neg (by rw [hN]; omega)]

example : [demoV, demoV].length ≠ 1 ∧ demoRx.antennas = demoRx.rfPorts ∧
    (∀ s, demoRx.decode s = .ok s) := ⟨by decide, rfl, fun _ => rfl⟩

/-! ### Device output -/

/-- `target[idx, :w.N] += w[idx, :]` with a list of row numbers, `signal_model.py` 1524-1532;
`IndexError` if a row is missing on either side. -/
def Arr.addRows (d : Arr) (l : List Nat) (w : Arr) : Except PyErr Arr :=
  if ∀ i ∈ l, i < d.M ∧ i < w.M then
    .ok ⟨d.M, d.N, fun m n => if m ∈ l ∧ n < w.N then d.x m n + w.x m n else d.x m n⟩
  else .error .index

/-- `DenseSignal.superimpose` with stream indices, on stored signals: `h` holds the signal objects,
`t` and `v` are references.  Returns the store and a reference to the result: the added signal if
the target is empty (line 1459), the modified target if it is large enough (1496-1500), else a new
signal (1502-1521).  `signal_model.py` 1446-1534. -/
def superimposeRef (h : List Dense) (t v : Nat) (p : Ports) : Except PyErr (List Dense × Nat) :=
  match h[t]?, h[v]? with
  | some s, some a =>
    if s.a.M * s.a.N < 1 then .ok (h, v)
    else do
      let w := s.aligned a
      let fits : Bool := w.M ≤ s.a.M ∧ w.N ≤ s.a.N
      let big ← if fits then .ok s.a
        else (Arr.zeros (max s.a.M w.M) (max s.a.N w.N)).addTo 0 s.a.M 0 s.a.N s.a
      let r ← match p with
        | none => big.addTo 0 big.M 0 w.N w
        | some l => Arr.addRows big l w
      if fits then .ok (h.set t { s with a := r }, t)
      else .ok (h ++ [{ s with a := r }], h.length)
  | _, _ => .error .attribute

/-- The loop of `Device.generate_output`, `core/device.py` 1435-1439.  `None` transmissions are
skipped. -/
def superimposeAll (h : List Dense) (t : Nat) :
    List (Option Nat × Ports) → Except PyErr (List Dense × Nat)
  | [] => .ok (h, t)
  | (none, _) :: r => superimposeAll h t r
  | (some v, p) :: r => do
      let x ← superimposeRef h t v p
      superimposeAll x.1 x.2 r

/-- `Device.generate_output` without transmit coding, `core/device.py` 1393-1457.  `h` are the
signal objects, `tx` the transmissions' references to them, `ports` the registered transmitters'
selections.  Result: store, reference to the emitted signal. -/
def generateOutput (h : List Dense) (rate : ℚ) (P statePorts required : Nat) (tx : List (Option Nat))
    (ports : List Ports) : Except PyErr (List Dense × Nat) :=
  if statePorts ≠ required then .error .runtime
  else superimposeAll (h ++ [emptySignal rate P]) h.length (tx.zip ports)

/-- Sum of stored signals at one port and time. -/
noncomputable def sumAt (h : List Dense) (vs : List Nat) (m n : Nat) : ℂ :=
  (vs.map (fun v => match h[v]? with | some s => s.a.get m n | none => 0)).sum

/-- All references are valid, of `P` streams, not empty and start at time `δ`. -/
def Plain (P : Nat) (δ : ℚ) (s : Dense) : Prop := s.a.M = P ∧ 0 < s.a.N ∧ s.delay = δ

theorem superimposeRef_plain (h : List Dense) (t v : Nat) (P : Nat) (δ : ℚ) (hP : 0 < P)
    (s a : Dense) (hs : h[t]? = some s) (ha : h[v]? = some a) (ps : Plain P δ s)
    (pa : Plain P δ a) :
    ∃ h' t' s', superimposeRef h t v none = .ok (h', t') ∧ h'[t']? = some s' ∧ Plain P δ s' ∧
      s'.a.N = max s.a.N a.a.N ∧ (∀ m n, s'.a.get m n = s.a.get m n + a.a.get m n) ∧
      (∀ u, u ≠ t → u < h.length → h'[u]? = h[u]?) ∧ h.length ≤ h'.length ∧
      (t' = t ∨ (t' = h.length ∧ h' = h ++ [s'])) := by
  obtain ⟨sM, sN, sd⟩ := ps
  obtain ⟨aM, aN, ad⟩ := pa
  unfold superimposeRef
  rw [hs, ha]
  dsimp only
  rw [if_neg (by have : 0 < s.a.M * s.a.N := Nat.mul_pos (by omega) sN; omega)]
  have hal : s.aligned a = a.a := by unfold Dense.aligned; rw [if_neg (by simp [sd, ad])]
  rw [hal]
  have htl : t < h.length := lt_of_getElem?_some hs
  by_cases hfit : a.a.M ≤ s.a.M ∧ a.a.N ≤ s.a.N
  · have hd : decide (a.a.M ≤ s.a.M ∧ a.a.N ≤ s.a.N) = true := by simpa using hfit
    obtain ⟨r, e, rM, rN, rg⟩ := update_get (fun x y => x + y) s.a 0 s.a.M 0 a.a.N a.a
      (le_refl _) hfit.2 (by omega) (by omega)
    have e' : s.a.addTo 0 s.a.M 0 a.a.N a.a = .ok r := e
    rw [hd]
    refine ⟨h.set t { s with a := r }, t, { s with a := r }, ?_, ?_, ?_, ?_, ?_, ?_, ?_, Or.inl rfl⟩
    · simp only [if_true]
      show (s.a.addTo 0 s.a.M 0 a.a.N a.a >>= _) = _
      rw [e']; rfl
    · rw [List.getElem?_set_self htl]
    · exact ⟨by rw [rM]; exact sM, by dsimp only; omega, sd⟩
    · dsimp only; omega
    · intro m n
      dsimp only
      rw [rg]
      split
      · simp
      · rename_i hc
        have : a.a.get m n = 0 := by unfold Arr.get; rw [if_neg (by omega)]
        rw [this, add_zero]
    · intro u hu _
      rw [List.getElem?_set_ne (fun e => hu e.symm)]
    · simp
  · have hd : decide (a.a.M ≤ s.a.M ∧ a.a.N ≤ s.a.N) = false := by simpa using hfit
    have eM : max s.a.M a.a.M = s.a.M := by omega
    have eN : max s.a.N a.a.N = a.a.N := by omega
    rw [hd, eM, eN]
    obtain ⟨b, e, bM, bN, bg⟩ := update_get (fun x y => x + y) (Arr.zeros s.a.M a.a.N)
      0 s.a.M 0 s.a.N s.a (by simp [Arr.zeros]) (by simp [Arr.zeros]; omega) (by omega) (by omega)
    have e1 : (Arr.zeros s.a.M a.a.N).addTo 0 s.a.M 0 s.a.N s.a = .ok b := e
    have bM' : b.M = s.a.M := bM
    have bN' : b.N = a.a.N := bN
    obtain ⟨r, er, rM, rN, rg⟩ := update_get (fun x y => x + y) b 0 b.M 0 a.a.N a.a
      (le_refl _) (by omega) (by omega) (by omega)
    have e2 : b.addTo 0 b.M 0 a.a.N a.a = .ok r := er
    refine ⟨h ++ [{ s with a := r }], h.length, { s with a := r }, ?_, ?_, ?_, ?_, ?_, ?_, ?_,
      Or.inr ⟨rfl, rfl⟩⟩
    · simp only [Bool.false_eq_true, if_false]
      show ((Arr.zeros s.a.M a.a.N).addTo 0 s.a.M 0 s.a.N s.a >>= _) = _
      rw [e1]
      show (b.addTo 0 b.M 0 a.a.N a.a >>= _) = _
      rw [e2]; rfl
    · simp
    · exact ⟨by dsimp only; omega, by dsimp only; omega, sd⟩
    · dsimp only; omega
    · intro m n
      dsimp only
      rw [rg, bg]
      have z : (Arr.zeros s.a.M a.a.N).get m n = 0 := zeros_get _ _ _ _
      rw [z]
      simp only [Nat.sub_zero, Nat.zero_le, true_and]
      have g1 : ¬ (m < s.a.M ∧ n < s.a.N) → s.a.get m n = 0 := fun hc => by
        unfold Arr.get; rw [if_neg hc]
      have g2 : ¬ (m < a.a.M ∧ n < a.a.N) → a.a.get m n = 0 := fun hc => by
        unfold Arr.get; rw [if_neg hc]
      by_cases c1 : m < s.a.M ∧ n < s.a.N
      · rw [if_pos (by omega), if_pos c1, zero_add]
      · rw [if_neg c1, g1 c1]
        by_cases c2 : m < b.M ∧ n < a.a.N
        · rw [if_pos c2]
        · rw [if_neg c2, g2 (by omega), add_zero]
    · intro u _ hl
      rw [List.getElem?_append_left hl]
    · simp

theorem superimposeAll_plain (h : List Dense) (t : Nat) (P : Nat) (δ : ℚ) (hP : 0 < P) (vs : List Nat)
    (s : Dense) (hs : h[t]? = some s) (ps : Plain P δ s) (ht : t ∉ vs)
    (hv : ∀ v ∈ vs, ∃ a, h[v]? = some a ∧ Plain P δ a) :
    ∃ h' t' s', superimposeAll h t (vs.map (fun v => (some v, (none : Ports)))) = .ok (h', t') ∧
      h'[t']? = some s' ∧ Plain P δ s' ∧ s.a.N ≤ s'.a.N ∧
      (∀ v ∈ vs, ∀ a, h[v]? = some a → a.a.N ≤ s'.a.N) ∧
      (∀ m n, s'.a.get m n = s.a.get m n + sumAt h vs m n) ∧
      (∀ u, u ≠ t → u < h.length → h'[u]? = h[u]?) := by
  induction vs generalizing h t s with
  | nil =>
    exact ⟨h, t, s, rfl, hs, ps, le_refl _, by simp, by simp [sumAt], fun _ _ _ => rfl⟩
  | cons v vs ih =>
    obtain ⟨a, ha, pa⟩ := hv v List.mem_cons_self
    obtain ⟨h1, t1, s1, e1, g1, p1, n1, x1, u1, l1, c1⟩ :=
      superimposeRef_plain h t v P δ hP s a hs ha ps pa
    have hlt : ∀ u ∈ vs, u < h.length := fun u hu => by
      obtain ⟨b, hb, _⟩ := hv u (List.mem_cons_of_mem _ hu)
      exact lt_of_getElem?_some hb
    have htn : ∀ u ∈ vs, u ≠ t := fun u hu e => ht (by rw [← e]; exact List.mem_cons_of_mem _ hu)
    have keep : ∀ u ∈ vs, h1[u]? = h[u]? := fun u hu => u1 u (htn u hu) (hlt u hu)
    have ht1 : t1 ∉ vs := by
      intro hc
      rcases c1 with c1 | ⟨c1, _⟩
      · exact htn _ hc c1
      · have := hlt _ hc; omega
    obtain ⟨h2, t2, s2, e2, g2, p2, n2, b2, x2, u2⟩ := ih h1 t1 s1 g1 p1 ht1 (fun u hu => by
      obtain ⟨b, hb, pb⟩ := hv u (List.mem_cons_of_mem _ hu)
      exact ⟨b, by rw [keep u hu]; exact hb, pb⟩)
    refine ⟨h2, t2, s2, ?_, g2, p2, by omega, ?_, ?_, ?_⟩
    · rw [List.map_cons]
      unfold superimposeAll
      rw [e1]; exact e2
    · intro u hu b hb
      rcases List.mem_cons.mp hu with rfl | hu
      · rw [ha] at hb; cases hb; omega
      · exact b2 u hu b (by rw [keep u hu]; exact hb)
    · intro m n
      rw [x2, x1]
      have : sumAt h1 vs m n = sumAt h vs m n := by
        unfold sumAt
        congr 1
        refine List.map_congr_left (fun u hu => ?_)
        rw [keep u hu]
      rw [this]
      have : sumAt h (v :: vs) m n = a.a.get m n + sumAt h vs m n := by
        unfold sumAt; rw [List.map_cons, List.sum_cons, ha]
      rw [this, add_assoc]
    · intro u hu hl
      by_cases hut : u = t1
      · rcases c1 with c1 | ⟨c1, _⟩
        · exact absurd (hut.trans c1) hu
        · omega
      · rw [u2 u hut (by omega), u1 u hu hl]

theorem zip_some_none (vs : List Nat) (ports : List Ports) (hl : ports.length = vs.length)
    (hp : ∀ p ∈ ports, p = none) :
    (vs.map some).zip ports = vs.map (fun v => (some v, (none : Ports))) := by
  induction vs generalizing ports with
  | nil => simp
  | cons v vs ih =>
    cases ports with
    | nil => simp at hl
    | cons p ports =>
      rw [hp p List.mem_cons_self, List.map_cons, List.zip_cons_cons, List.map_cons,
        ih ports (by simpa using hl) (fun q hq => hp q (List.mem_cons_of_mem _ hq))]

/-- C50 if no transmitter selects ports and all transmissions start together, have a sample and as
many streams as the device has ports, each its own signal: the emitted signal has one stream per
port, holds all transmissions, carries at every port and time the sum of all of them, and leaves all
transmissions but the first as they were.  Missing for the full claim: selected ports
(`C50_selected_ports_fails`, `C50_second_selection_fails`) and the first transmission
(`C50_first_transmission_fails`). -/
theorem C50_output_partial (h : List Dense) (rate : ℚ) (P : Nat) (δ : ℚ) (hP : 0 < P) (v : Nat)
    (vs : List Nat) (ports : List Ports) (hl : ports.length = vs.length + 1)
    (hp : ∀ p ∈ ports, p = none) (hd : v ∉ vs)
    (hv : ∀ u ∈ v :: vs, ∃ a, h[u]? = some a ∧ Plain P δ a) :
    ∃ h' t s, generateOutput h rate P P P ((v :: vs).map some) ports = .ok (h', t) ∧
      h'[t]? = some s ∧ s.a.M = P ∧
      (∀ u ∈ v :: vs, ∀ a, h[u]? = some a → a.a.N ≤ s.a.N) ∧
      (∀ m n, s.a.get m n = sumAt h (v :: vs) m n) ∧
      (∀ u, u ≠ v → u < h.length → h'[u]? = h[u]?) := by
  have hlt : ∀ u ∈ v :: vs, u < h.length := fun u hu => by
    obtain ⟨b, hb, _⟩ := hv u hu
    exact lt_of_getElem?_some hb
  have keep : ∀ (u : Nat), u < h.length → (h ++ [emptySignal rate P])[u]? = h[u]? :=
    fun u hu => List.getElem?_append_left hu
  obtain ⟨a, ha, pa⟩ := hv v List.mem_cons_self
  obtain ⟨h', t, s, e, g, p, n, b, x, k⟩ := superimposeAll_plain (h ++ [emptySignal rate P]) v P δ hP
    vs a (by rw [keep v (hlt v List.mem_cons_self)]; exact ha) pa hd (fun u hu => by
      obtain ⟨b, hb, pb⟩ := hv u (List.mem_cons_of_mem _ hu)
      exact ⟨b, by rw [keep u (hlt u (List.mem_cons_of_mem _ hu))]; exact hb, pb⟩)
  refine ⟨h', t, s, ?_, g, p.1, ?_, ?_, ?_⟩
  · unfold generateOutput
    rw [if_neg (by simp), zip_some_none _ _ (by simpa using hl) hp, List.map_cons]
    unfold superimposeAll
    have : superimposeRef (h ++ [emptySignal rate P]) h.length v none
        = .ok (h ++ [emptySignal rate P], v) := by
      unfold superimposeRef
      rw [keep v (hlt v List.mem_cons_self), ha]
      simp [emptySignal, Arr.zeros]
    rw [this]
    exact e
  · intro u hu c hc
    rcases List.mem_cons.mp hu with rfl | hu
    · rw [ha] at hc; cases hc; exact n
    · exact b u hu c (by rw [keep u (hlt u (List.mem_cons_of_mem _ hu))]; exact hc)
  · intro m n
    rw [x]
    have : sumAt (h ++ [emptySignal rate P]) vs m n = sumAt h vs m n := by
      unfold sumAt
      congr 1
      refine List.map_congr_left (fun u hu => ?_)
      rw [keep u (hlt u (List.mem_cons_of_mem _ hu))]
    rw [this]
    unfold sumAt
    rw [List.map_cons, List.sum_cons, ha]
  · intro u hu hul
    rw [k u hu (by simp; omega), keep u hul]

/-- A second signal of two streams, three samples. -/
def demoW : Dense := ⟨⟨2, 3, fun m n => 10 * m + n⟩, 1, 0⟩

example : 0 ∉ [1] ∧ ∀ u ∈ [0, 1], ∃ a, [demoV, demoW][u]? = some a ∧ Plain 2 0 a := by
  refine ⟨by decide, fun u hu => ?_⟩
  simp only [List.mem_cons, List.not_mem_nil, or_false] at hu
  rcases hu with rfl | rfl
  · exact ⟨demoV, rfl, rfl, by decide, rfl⟩
  · exact ⟨demoW, rfl, rfl, by decide, rfl⟩

/-- C50: a state with another number of ports than the transmit coding requires is refused. -/
theorem C50_wrong_ports (h : List Dense) (rate : ℚ) (P a b : Nat) (tx : List (Option Nat))
    (ports : List Ports) (hab : a ≠ b) : generateOutput h rate P a b tx ports = .error .runtime :=
  if_pos hab

/-- C50 is false for the first transmission: the selection of its transmitter is ignored.  Whatever
ports it selected, the emitted signal of a device with a single transmitter is the transmission
itself, stream 0 on port 0 and so on, with as many streams as the transmission. -/
theorem C50_selected_ports_fails (h : List Dense) (rate : ℚ) (P : Nat) (v : Nat) (a : Dense)
    (ha : h[v]? = some a) (p : Ports) :
    ∃ h', generateOutput h rate P P P [some v] [p] = .ok (h', v) ∧ h'[v]? = some a := by
  have hl := lt_of_getElem?_some ha
  have keep : (h ++ [emptySignal rate P])[v]? = some a := by
    rw [List.getElem?_append_left hl, ha]
  refine ⟨h ++ [emptySignal rate P], ?_, keep⟩
  unfold generateOutput
  rw [if_neg (by simp)]
  simp only [List.zip_cons_cons, List.zip_nil_left, superimposeAll]
  have : superimposeRef (h ++ [emptySignal rate P]) h.length v p
      = .ok (h ++ [emptySignal rate P], v) := by
    unfold superimposeRef
    rw [keep]
    simp [emptySignal, Arr.zeros]
  rw [this]; rfl

example : [demoV][0]? = some demoV := rfl

/-- C50 is false for later transmissions: a transmitter that selected port `i` and so generated
fewer than `i + 1` streams cannot transmit after another one, the call raises. -/
theorem C50_second_selection_fails (h : List Dense) (rate : ℚ) (P : Nat) (δ : ℚ) (hP : 0 < P)
    (u v : Nat) (a b : Dense) (hu : h[u]? = some a) (hv : h[v]? = some b) (pa : Plain P δ a)
    (hb : b.delay = δ) (p : Ports) (l : List Nat) (i : Nat) (hi : i ∈ l) (hlen : b.a.M = l.length)
    (hil : l.length ≤ i) :
    ∃ e, generateOutput h rate P P P [some u, some v] [p, some l] = .error e := by
  have keep : ∀ (u : Nat) (a : Dense), h[u]? = some a →
      (h ++ [emptySignal rate P])[u]? = some a := fun u a ha => by
    rw [List.getElem?_append_left (lt_of_getElem?_some ha), ha]
  unfold generateOutput
  rw [if_neg (by simp)]
  simp only [List.zip_cons_cons, List.zip_nil_left, superimposeAll]
  have e1 : superimposeRef (h ++ [emptySignal rate P]) h.length u p
      = .ok (h ++ [emptySignal rate P], u) := by
    unfold superimposeRef
    rw [keep u a hu]
    simp [emptySignal, Arr.zeros]
  rw [e1]
  obtain ⟨aM, aN, ad⟩ := pa
  show ∃ e, (superimposeRef (h ++ [emptySignal rate P]) u v (some l) >>= _) = .error e
  have hal : a.aligned b = b.a := by unfold Dense.aligned; rw [if_neg (by simp [ad, hb])]
  have hbad : ∀ big : Arr, Arr.addRows big l b.a = .error .index := by
    intro big
    unfold Arr.addRows
    rw [if_neg (fun hc => absurd (hc i hi).2 (by omega))]
  have : ∃ e, superimposeRef (h ++ [emptySignal rate P]) u v (some l) = .error e := by
    unfold superimposeRef
    rw [keep u a hu, keep v b hv]
    dsimp only
    rw [if_neg (by have : 0 < a.a.M * a.a.N := Nat.mul_pos (by omega) aN; omega), hal]
    split
    · refine ⟨.index, ?_⟩
      show (Arr.addRows a.a l b.a >>= _) = _
      rw [hbad a.a]; rfl
    · cases (Arr.zeros (max a.a.M b.a.M) (max a.a.N b.a.N)).addTo 0 a.a.M 0 a.a.N a.a with
      | error e => exact ⟨e, rfl⟩
      | ok big =>
        refine ⟨.index, ?_⟩
        show (Arr.addRows big l b.a >>= _) = _
        rw [hbad big]; rfl
  obtain ⟨e, he⟩ := this
  rw [he]; exact ⟨e, rfl⟩

/-- One stream, one sample. -/
def demoOne : Dense := ⟨⟨1, 1, fun _ _ => 7⟩, 1, 0⟩

example : Plain 2 0 demoV ∧ demoOne.delay = 0 ∧ 1 ∈ [1] ∧ demoOne.a.M = [1].length ∧
    [1].length ≤ 1 := ⟨⟨rfl, by decide, rfl⟩, rfl, by decide, rfl, by decide⟩

/-- C50 is false of the stored transmissions: if the first transmission is at least as long as the
second, the emitted signal is the first transmission's own signal, which afterwards holds the sum of
both. -/
theorem C50_first_transmission_fails (h : List Dense) (rate : ℚ) (P : Nat) (δ : ℚ) (hP : 0 < P)
    (u v : Nat) (huv : u ≠ v) (a b : Dense) (hu : h[u]? = some a) (hv : h[v]? = some b)
    (pa : Plain P δ a) (pb : Plain P δ b) (hn : b.a.N ≤ a.a.N) :
    ∃ h' s, generateOutput h rate P P P [some u, some v] [none, none] = .ok (h', u) ∧
      h'[u]? = some s ∧ ∀ m n, s.a.get m n = a.a.get m n + b.a.get m n := by
  have keep : ∀ (u : Nat) (a : Dense), h[u]? = some a →
      (h ++ [emptySignal rate P])[u]? = some a := fun u a ha => by
    rw [List.getElem?_append_left (lt_of_getElem?_some ha), ha]
  have e1 : superimposeRef (h ++ [emptySignal rate P]) h.length u none
      = .ok (h ++ [emptySignal rate P], u) := by
    unfold superimposeRef
    rw [keep u a hu]
    simp [emptySignal, Arr.zeros]
  obtain ⟨h', t', s, e2, g, p, n, x, _, _, c⟩ := superimposeRef_plain (h ++ [emptySignal rate P]) u v
    P δ hP a b (keep u a hu) (keep v b hv) pa pb
  have ht : t' = u := by
    -- the branch without reallocation
    unfold superimposeRef at e2
    rw [keep u a hu, keep v b hv] at e2
    dsimp only at e2
    have hal : a.aligned b = b.a := by
      unfold Dense.aligned; rw [if_neg (by simp [pa.2.2, pb.2.2])]
    rw [if_neg (by have : 0 < a.a.M * a.a.N := Nat.mul_pos (by rw [pa.1]; exact hP) pa.2.1; omega),
      hal] at e2
    have hd : decide (b.a.M ≤ a.a.M ∧ b.a.N ≤ a.a.N) = true := by
      have := pa.1; have := pb.1; simp; omega
    rw [hd] at e2
    simp only [if_true] at e2
    cases hq : a.a.addTo 0 a.a.M 0 b.a.N b.a with
    | error q =>
      change (a.a.addTo 0 a.a.M 0 b.a.N b.a >>= _) = _ at e2
      rw [hq] at e2; cases e2
    | ok q =>
      change (a.a.addTo 0 a.a.M 0 b.a.N b.a >>= _) = _ at e2
      rw [hq] at e2
      have := congrArg (fun r => match r with | Except.ok (z : List Dense × Nat) => z.2 | _ => u) e2
      exact this.symm
  subst ht
  refine ⟨h', s, ?_, g, x⟩
  unfold generateOutput
  rw [if_neg (by simp)]
  simp only [List.zip_cons_cons, List.zip_nil_left, superimposeAll]
  rw [e1]
  show (superimposeRef (h ++ [emptySignal rate P]) t' v none >>= _) = _
  rw [e2]; rfl

example : (0 : Nat) ≠ 1 ∧ [demoW, demoV][0]? = some demoW ∧ [demoW, demoV][1]? = some demoV ∧
    Plain 2 0 demoW ∧ Plain 2 0 demoV ∧ demoV.a.N ≤ demoW.a.N :=
  ⟨by decide, rfl, rfl, ⟨rfl, by decide, rfl⟩, ⟨rfl, by decide, rfl⟩, by decide⟩

end Verif.Core
