import Verif.Precoding.Chain

/-!
# Order of precoding steps

`Precoding.__setitem__`, the constructors of `Device` and of the modems, and (de)serialization of
the step sequences.
-/

namespace Verif.Precoding

variable {P : Type}

/-- `Precoding.__setitem__`, `core/precoding.py` 147-167 (the back reference `precoder.precoding`
is not part of the order and is left out). `IndexError` beyond the end. -/
def setItem (l : List P) (index : Int) (p : P) : Except PyErr (List P) :=
  if index < 0 then .ok (p :: l)
  else if index = l.length then .ok (l ++ [p])
  else if index.toNat < l.length then .ok (l.set index.toNat p)
  else .error .index

/-- `Precoding.pop_precoder`, `core/precoding.py` 174-184 (`list.pop`, negative indices count from
the end). -/
def popPrecoder (l : List P) (index : Int) : Except PyErr (P × List P) :=
  let i := if index < 0 then index + l.length else index
  if i < 0 then .error .index
  else match l[i.toNat]? with
    | none => .error .index
    | some p => .ok (p, l.eraseIdx i.toNat)

/-- `for encoder in steps: coding[-1] = encoder`: `Device.__init__` (`core/device.py` 1163-1183),
`TransmittingModemBase.__init__` / `ReceivingModemBase.__init__` (`modem/modem.py` 692-708,
1047-1063) when the steps are given as a plain sequence; `coding` starts empty. -/
def installLoop : List P → List P → Except PyErr (List P)
  | [], coding => .ok coding
  | s :: ss, coding => do
    let c ← setItem coding (-1) s
    installLoop ss c

/-- The chain of a device / modem constructed with a plain sequence of steps. -/
def construct (steps : List P) : Except PyErr (List P) := installLoop steps []

/-- `Device.serialize` followed by `Device.Deserialize` (`core/device.py` 1643-1670; modems:
`modem/modem.py` 891-908, 1270-1286): the sequence is written in chain order, read back in the same
order (`core/factory.py` 961-990, 1193-1220), and handed to the constructor. -/
def roundTrip (chain : List P) : Except PyErr (List P) := construct chain

/-- `Precoding.serialize` / `Precoding.Deserialize`, `core/precoding.py` 186-195: the list itself is
restored, the constructor loop is not involved. -/
def precodingRoundTrip (chain : List P) : List P := chain

/-- One iteration of the loop when the modem constructor receives a `TransmitSymbolCoding` (or
`TransmitSignalCoding`, ...) object: the loop iterates over the very object it inserts into
(`modem/modem.py` 692-699: `self.__transmit_symbol_coding = transmit_symbol_coding` and
`for e in transmit_symbol_coding: self.__transmit_symbol_coding[-1] = e`). The iterator is
`collections.abc.Sequence.__iter__`: position `i` is read until `IndexError`.
State: position and the list; `none` means that the loop has ended. -/
def selfIterStep : Nat × List P → Option (Nat × List P)
  | (i, l) => match l[i]? with
    | none => none
    | some e => some (i + 1, e :: l)

/-- `k` iterations of that loop; `none` as soon as it has ended. -/
def selfIter : Nat → Nat × List P → Option (Nat × List P)
  | 0, s => some s
  | k + 1, s => (selfIterStep s).bind (selfIter k)

/-! ### C09 -/

theorem installLoop_eq (steps coding : List P) :
    installLoop steps coding = .ok (steps.reverse ++ coding) := by
  induction steps generalizing coding with
  | nil => rfl
  | cons s ss ih =>
    have : setItem coding (-1) s = .ok (s :: coding) := by simp [setItem]
    simp [installLoop, this, bind, Except.bind, ih]

/-- C09, exact law (the property itself is false): the constructor installs the steps in *reverse*
order, for every list of steps. -/
theorem C09_constructor_reverses_partial (steps : List P) :
    construct steps = .ok steps.reverse := by
  simp [construct, installLoop_eq]

/-- C09, the order of the user survives exactly for palindromic step lists. -/
theorem C09_order_kept_iff_partial (steps : List P) :
    construct steps = .ok steps ↔ steps.reverse = steps := by
  rw [C09_constructor_reverses_partial]
  constructor
  · intro h; injection h
  · intro h; rw [h]

/-- C09 is false: two different steps are applied in the wrong order. -/
theorem C09_order_fails (a b : P) (h : a ≠ b) :
    construct [a, b] ≠ .ok [a, b] ∧ construct [a, b] = .ok [b, a] := by
  rw [C09_constructor_reverses_partial]
  refine ⟨?_, rfl⟩
  intro hc
  injection hc with hc
  simp at hc
  exact h hc.1.symm

/-- C09, persistence is false: after one save/load cycle the chain of a device is reversed again,
only an even number of cycles restores it. -/
theorem C09_round_trip_reverses_partial (chain : List P) :
    roundTrip chain = .ok chain.reverse ∧
    (roundTrip chain).bind roundTrip = .ok chain := by
  constructor
  · exact C09_constructor_reverses_partial chain
  · simp [roundTrip, C09_constructor_reverses_partial, Except.bind]

/-- C09, persistence: a device with two different steps changes its behaviour by being saved and
loaded. The witness is behavioural: encoding through the loaded chain differs. -/
theorem C09_round_trip_fails :
    ∃ (chain loaded : List (Encoder (List Int))) (x : List Int),
      roundTrip chain = .ok loaded ∧
      encodeStreams (fun _ => 2) chain 2 x = .ok [0, 1] ∧
      encodeStreams (fun _ => 2) loaded 2 x = .ok [1, 0] :=
  ⟨[⟨id, fun x _ => .ok (x ++ [0])⟩, ⟨id, fun x _ => .ok (x ++ [1])⟩],
   [⟨id, fun x _ => .ok (x ++ [1])⟩, ⟨id, fun x _ => .ok (x ++ [0])⟩], [], rfl, rfl, rfl⟩

/-- C09, what works: a chain assembled step by step at the end (`coding[len(coding)] = step`) keeps
the order of the user. -/
theorem C09_append_keeps_order_partial (steps coding : List P) :
    steps.foldlM (fun c s => setItem c c.length s) coding = .ok (coding ++ steps) := by
  induction steps generalizing coding with
  | nil => simp [pure, Except.pure]
  | cons s ss ih =>
    have : setItem coding coding.length s = .ok (coding ++ [s]) := by simp [setItem]
    simp only [List.foldlM_cons, this, bind, Except.bind]
    rw [ih]; simp

/-- `pop_precoder`: a valid index, counted from the front or, when negative, from the back, removes and
returns exactly the step at that position, the others keep their order; every other index is an
`IndexError`. -/
theorem C09_pop_spec (l : List P) (index : Int) :
    (∀ (a b : List P) (p : P), l = a ++ p :: b → index = a.length ∨ index = -(b.length + 1 : Int) →
      popPrecoder l index = .ok (p, a ++ b)) ∧
    ((l.length : Int) ≤ index ∨ index < -(l.length : Int) → popPrecoder l index = .error .index) := by
  constructor
  · rintro a b p rfl hi
    have h : (if index < 0 then index + ((a ++ p :: b).length : Int) else index) = a.length := by
      simp only [List.length_append, List.length_cons]
      push_cast
      split <;> omega
    simp only [popPrecoder, h]
    rw [if_neg (by omega)]
    simp [List.eraseIdx_append_of_length_le]
  · intro h
    simp only [popPrecoder]
    by_cases hn : index < 0
    · rw [if_pos hn, if_pos (by omega)]
    · rw [if_neg hn, if_neg hn, List.getElem?_eq_none (by omega)]

example : popPrecoder [1, 2, 3] (-1) = .ok (3, [1, 2]) :=
  (C09_pop_spec [1, 2, 3] (-1)).1 [1, 2] [] 3 rfl (Or.inr rfl)

/-- The documented index semantics of `__setitem__`: an index inside replaces, the index at the end
appends, a negative one prepends, anything else is an `IndexError`; no other element moves. -/
theorem C09_setitem_spec (l : List P) (index : Int) (p : P) :
    (index < 0 → setItem l index p = .ok (p :: l)) ∧
    (∀ i : Nat, index = i → i < l.length →
      ∃ l', setItem l index p = .ok l' ∧ l'.length = l.length ∧ l'[i]? = some p ∧
        ∀ j, j ≠ i → l'[j]? = l[j]?) ∧
    (index = l.length → setItem l index p = .ok (l ++ [p])) ∧
    ((l.length : Int) < index → setItem l index p = .error .index) := by
  refine ⟨?_, ?_, ?_, ?_⟩
  · intro h; simp [setItem, h]
  · rintro i rfl hi
    refine ⟨l.set i p, ?_, by simp, ?_, ?_⟩
    · have h2 : ¬ ((i : Int) = l.length) := by omega
      have h1 : ¬ ((i : Int) < 0) := by omega
      simp only [setItem, if_neg h1, if_neg h2]
      simp [hi]
    · simp [hi]
    · intro j hj
      rw [List.getElem?_set_ne (fun h => hj h.symm)]
  · intro h
    have h1 : ¬ ((l.length : Int) < 0) := by omega
    subst h
    simp [setItem, h1]
  · intro h
    have h1 : ¬ (index < 0) := by omega
    have h2 : ¬ (index = l.length) := by omega
    have h3 : ¬ (index.toNat < l.length) := by omega
    simp [setItem, h1, h2, h3]

example : construct [1, 2, 3] = .ok [3, 2, 1] := by rfl
example : [1, 2, 1].reverse = [1, 2, 1] := by rfl

/-! ### C46: handing over an existing coding object -/

/-- C46 is false: constructing a modem with a non-empty coding object never terminates: after any
number of iterations the loop is still running, and every iteration has added one more step. -/
theorem C46_existing_coding_diverges_fails (chain : List P) (hne : chain ≠ []) (k : Nat) :
    ∃ i l, selfIter k (0, chain) = some (i, l) ∧ l.length = chain.length + k := by
  suffices H : ∀ (k i : Nat) (l : List P), i < l.length →
      ∃ i' l', selfIter k (i, l) = some (i', l') ∧ l'.length = l.length + k by
    exact H k 0 chain (List.length_pos_iff.mpr hne)
  intro k
  induction k with
  | zero => intro i l _; exact ⟨i, l, rfl, by simp⟩
  | succ k ih =>
    intro i l hi
    obtain ⟨i', l', h, hl⟩ := ih (i + 1) (l[i] :: l) (by simpa using hi)
    refine ⟨i', l', ?_, by simp at hl; omega⟩
    simp [selfIter, selfIterStep, List.getElem?_eq_getElem hi, h]

/-- C46, what works: an empty coding object is accepted. -/
theorem C46_empty_coding_partial : selfIterStep ((0, []) : Nat × List P) = none := rfl

example : selfIter 3 (0, [7, 8]) = some (3, [7, 7, 7, 7, 8]) := by decide

end Verif.Precoding
