import Verif.Fec.Manager2

/-!
# Handing an encoder manager to a modem

`BaseModem.__init__`, `hermespy/modem/modem.py` 507-553.
-/

namespace Verif.Modem

open Verif.Fec

variable {σ : Type}

/-- State of the loop `for encoder in encoding.encoders: self.encoder_manager.add_encoder(encoder)`
when `encoding` is an `EncoderManager`: then `self.encoder_manager` *is* `encoding`.
`iterated` is the list object the loop runs over (`encoding.encoders` is evaluated once), `index` the
position of its iterator, `manager` the manager. `shared` tells whether the manager's current list is
still that very list object: `add_encoder` appends to the current object and afterwards replaces it by
the object returned by `sorted` (`fec/coding.py` 209-210). -/
structure InstallState (σ : Type) where
  iterated : List (Encoder σ)
  index : Nat
  manager : Manager σ
  shared : Bool

/-- One iteration of that loop, `modem/modem.py` 544-546 with `fec/coding.py` 197-210.
`none`: the iterator is exhausted. -/
def InstallState.step (s : InstallState σ) : Option (InstallState σ) :=
  match s.iterated[s.index]? with
  | none => none
  | some e => some
    { iterated := if s.shared then s.iterated ++ [e] else s.iterated
      index := s.index + 1
      manager := s.manager.addEncoder e
      shared := false }

/-- The loop; `fuel` bounds the number of iterations, `none` if it has not ended by then. -/
def installRun : Nat → InstallState σ → Option (Manager σ)
  | 0, _ => none
  | fuel + 1, s =>
    match s.step with
    | none => some s.manager
    | some s' => installRun fuel s'

/-- `BaseModem(encoding=manager)`. -/
def modemWithManager (fuel : Nat) (m : Manager σ) : Option (Manager σ) :=
  installRun fuel ⟨m.encoders, 0, m, true⟩

/-- `BaseModem(encoding=[e1, ..., en])`: a new manager, every encoder of the sequence is added.
`modem/modem.py` 542-546. -/
def modemWithSequence (es : List (Encoder σ)) : Manager σ :=
  es.foldl (fun m e => m.addEncoder e) ⟨[], true, true⟩

/-- After the first iteration the loop runs over an object nobody changes any more. -/
theorem installRun_unshared (fuel : Nat) (l : List (Encoder σ)) (i : Nat) (m : Manager σ)
    (h : l.length - i < fuel) :
    installRun fuel ⟨l, i, m, false⟩ = some ((l.drop i).foldl (fun m e => m.addEncoder e) m) := by
  induction fuel generalizing i m with
  | zero => omega
  | succ fuel ih =>
    by_cases hi : i < l.length
    · have e : InstallState.step ⟨l, i, m, false⟩ = some ⟨l, i + 1, m.addEncoder l[i], false⟩ := by
        simp [InstallState.step, List.getElem?_eq_getElem hi]
      rw [installRun, e]
      simp only []
      rw [ih (i + 1) _ (by omega), List.drop_eq_getElem_cons hi, List.foldl_cons]
    · have e : InstallState.step ⟨l, i, m, false⟩ = none := by
        simp [InstallState.step, List.getElem?_eq_none (Nat.le_of_not_lt hi)]
      rw [installRun, e, List.drop_eq_nil_of_le (by omega)]
      rfl

/-- C54, sequences: a modem given a plain sequence of encoders uses exactly these, in execution
order. -/
theorem C54_sequence_partial (es : List (Encoder σ)) :
    (modemWithSequence es).encoders.Perm es ∧
    (modemWithSequence es).encoders.Pairwise (fun a b => a.K ≤ b.K) :=
  ⟨(C07_execution_order true true es).1, (C07_execution_order true true es).2.1⟩

/-- C54 is false for encoder managers: constructing a modem with a manager of `n ≥ 1` encoders leaves
`2 n + 1` encoders in the manager: every one twice, the first one three times. (The loop ends after
`n + 1` iterations.) -/
theorem C54_manager_fails (m : Manager σ) (e : Encoder σ) (es : List (Encoder σ))
    (hm : m.encoders = e :: es) (fuel : Nat) (hf : m.encoders.length + 2 ≤ fuel) :
    ∃ m', modemWithManager fuel m = some m' ∧
      m'.encoders.Perm (m.encoders ++ (m.encoders ++ [e])) ∧
      m'.encoders.length = 2 * m.encoders.length + 1 := by
  obtain ⟨f, rfl⟩ : ∃ f, fuel = f + 1 := ⟨fuel - 1, by omega⟩
  have hstep : InstallState.step ⟨m.encoders, 0, m, true⟩ =
      some ⟨m.encoders ++ [e], 1, m.addEncoder e, false⟩ := by
    simp [InstallState.step, hm]
  have hperm : ∀ (l : List (Encoder σ)) (m : Manager σ),
      (l.foldl (fun m e => m.addEncoder e) m).encoders.Perm (m.encoders ++ l) := by
    intro l
    induction l with
    | nil => intro m; simp
    | cons a l ih =>
      intro m
      rw [List.foldl_cons]
      refine (ih _).trans ?_
      have : (m.addEncoder a).encoders.Perm (m.encoders ++ [a]) := List.mergeSort_perm _ _
      refine (this.append_right l).trans ?_
      simp
  have hd : (m.encoders ++ [e]).drop 1 = es ++ [e] := by rw [hm]; rfl
  refine ⟨((es ++ [e]).foldl (fun m e => m.addEncoder e) (m.addEncoder e)), ?_, ?_, ?_⟩
  · rw [modemWithManager, installRun, hstep]
    simp only []
    rw [installRun_unshared f _ 1 _ (by simp; omega), hd]
  · refine (hperm _ _).trans ?_
    have : (m.addEncoder e).encoders.Perm (m.encoders ++ [e]) := List.mergeSort_perm _ _
    refine (this.append_right _).trans ?_
    rw [hm]; simp
  · rw [(hperm _ _).length_eq]
    have : (m.addEncoder e).encoders.Perm (m.encoders ++ [e]) := List.mergeSort_perm _ _
    rw [List.length_append, this.length_eq, hm]
    simp; omega

/-- `DuplexModem` and `SimplexLink` run `BaseModem.__init__` twice with the same manager, once as
receiver and once as transmitter, `modem/modem.py` 1437-1459, 1547-1569. -/
def duplexWithManager (fuel : Nat) (m : Manager σ) : Option (Manager σ) :=
  match modemWithManager fuel m with
  | none => none
  | some m' => modemWithManager fuel m'

/-- C54 is false for links and duplex modems as well: `n ≥ 1` encoders become `4 n + 3`. -/
theorem C54_duplex_fails (m : Manager σ) (hm : m.encoders ≠ []) (fuel : Nat)
    (hf : 2 * m.encoders.length + 3 ≤ fuel) :
    ∃ m', duplexWithManager fuel m = some m' ∧ m'.encoders.length = 4 * m.encoders.length + 3 := by
  obtain ⟨e, es, h⟩ := List.exists_cons_of_ne_nil hm
  obtain ⟨m1, h1, _, h3⟩ := C54_manager_fails m e es h fuel (by omega)
  obtain ⟨e', es', h'⟩ : ∃ e' es', m1.encoders = e' :: es' :=
    List.exists_cons_of_ne_nil (by intro hn; rw [hn] at h3; simp at h3)
  obtain ⟨m2, k1, _, k3⟩ := C54_manager_fails m1 e' es' h' fuel (by omega)
  refine ⟨m2, by rw [duplexWithManager, h1]; exact k1, by rw [k3, h3]; omega⟩

/-- C54, consequence: a manager with a rate-1/3 repetition code, handed to a modem, codes one bit into
27 instead of three. -/
theorem C54_rate_fails (rng : Nat → Bool) (b : Bool) :
    ∃ m' code m1 p1,
      modemWithManager 3 (⟨[repetitionEncoder 1 3 ()], true, true⟩ : Manager Unit) = some m' ∧
      m'.encode rng 0 [b] 0 = .ok (code, m1, p1) ∧ code.length = 27 := by
  obtain ⟨m', h1, h2, _⟩ := C54_manager_fails
    (⟨[repetitionEncoder 1 3 ()], true, true⟩ : Manager Unit) _ _ rfl 3 (by simp)
  have h3 : m'.encoders =
      [repetitionEncoder 1 3 (), repetitionEncoder 1 3 (), repetitionEncoder 1 3 ()] :=
    (List.perm_replicate (n := 3) (a := repetitionEncoder 1 3 ())).1 h2
  obtain ⟨es, p, t⟩ := m'
  simp only at h3
  subst h3
  have ht : p = true := by
    have := h1
    simp [modemWithManager, installRun, InstallState.step, Manager.addEncoder] at this
    tauto
  subst ht
  refine ⟨_, List.replicate 27 b, ⟨[repetitionEncoder 1 3 (), repetitionEncoder 1 3 (),
    repetitionEncoder 1 3 ()], true, t⟩, 0, h1, ?_, by simp⟩
  simp [Manager.encode, encodeChain, encodeStage, encodeBlocks, repetitionEncoder, repetitionEncode,
    Np.tile, drawBits, bind, Except.bind, List.replicate]

/-- C54, what works: a manager without encoders stays as it is. -/
theorem C54_empty_manager_partial (m : Manager σ) (h : m.encoders = []) (fuel : Nat) :
    modemWithManager (fuel + 1) m = some m := by
  simp [modemWithManager, installRun, InstallState.step, h]

example : ∃ m' : Manager Unit,
    modemWithManager 4 ⟨[repetitionEncoder 1 3 (), interleaverEncoder 6 2 ()], true, true⟩ = some m' ∧
      m'.encoders.length = 5 := by
  obtain ⟨m', h1, _, h3⟩ := C54_manager_fails
    (⟨[repetitionEncoder 1 3 (), interleaverEncoder 6 2 ()], true, true⟩ : Manager Unit) _ _ rfl 4
    (by simp)
  exact ⟨m', h1, h3⟩

end Verif.Modem
