import Verif.Np
import Mathlib.Analysis.SpecialFunctions.Log.Base
import Mathlib.Analysis.SpecialFunctions.Pow.Real

/-!
# C27: decibel numbers

Floating point numbers are idealised as reals.
-/

namespace Verif.Core

/-- `DbConversionType`, `hermespy/tools/math.py` 28-33. -/
inductive Conv where
  | power
  | amplitude
  deriving DecidableEq

/-- `ValueType`, `hermespy/core/logarithmic.py` 24-29. -/
inductive ValueType where
  | lin
  | db
  deriving DecidableEq

/-- `db2lin`, `hermespy/tools/math.py` 35-58. -/
noncomputable def db2lin (x : ℝ) : Conv → ℝ
  | .power => 10 ^ (x / 10)
  | .amplitude => 10 ^ (x / 20)

/-- `lin2db`, `hermespy/tools/math.py` 61-82.  For non-positive arguments numpy returns `nan` or
`-inf`; the callers below reject these. -/
noncomputable def lin2db (x : ℝ) : Conv → ℝ
  | .power => 10 * Real.logb 10 x
  | .amplitude => 20 * Real.logb 10 x

/-- A `Logarithmic`: its float value, its stored decibel value and its conversion. -/
structure Log where
  lin : ℝ
  db : ℝ
  conv : Conv

open Classical in
/-- `Logarithmic.__init__` on an instance of float value `self`, `logarithmic.py` 38-78. -/
noncomputable def Log.init (self value : ℝ) (vt : ValueType) (conv : Conv) : Except PyErr Log :=
  let db := match vt with
    | .db => value
    | .lin => lin2db value conv
  if self ≤ 0 then .error .value else .ok ⟨self, db, conv⟩

/-- Construction of a `Logarithmic`: `__new__` (80-110), then `__init__`. -/
noncomputable def Log.new (value : ℝ) (vt : ValueType) (conv : Conv) : Except PyErr Log :=
  let self := match vt with
    | .lin => value
    | .db => db2lin value conv
  Log.init self value vt conv

/-- `Logarithmic.From_Tuple`, `logarithmic.py` 112-131. -/
noncomputable def Log.fromTuple (lin log : ℝ) (conv : Conv) : Except PyErr Log :=
  Log.init lin log .db conv

/-- `__add__`, `__sub__`, `__mul__`, `__truediv__` with a `Logarithmic`, `logarithmic.py` 153-222. -/
noncomputable def Log.add (a b : Log) : Except PyErr Log := Log.new (a.lin + b.lin) .lin a.conv
noncomputable def Log.sub (a b : Log) : Except PyErr Log := Log.new (a.lin - b.lin) .lin a.conv
noncomputable def Log.mul (a b : Log) : Except PyErr Log := Log.new (a.lin * b.lin) .lin a.conv
noncomputable def Log.div (a b : Log) : Except PyErr Log := Log.new (a.lin / b.lin) .lin a.conv

/-- `__reduce__` and reconstruction (pickling), `logarithmic.py` 243-252. -/
noncomputable def Log.pickle (a : Log) : Except PyErr Log := Log.fromTuple a.lin a.db a.conv

/-- A `LogarithmicSequence`: array content, stored decibel values, conversion. -/
structure LogSeq where
  lin : List ℝ
  dbs : List ℝ
  conv : Conv

/-- `__array_finalize__` for a view on an array whose `conversion` attribute is `inst` (`none` for a
plain array), `logarithmic.py` 298-317. -/
noncomputable def LogSeq.finalize (lin : List ℝ) (inst : Option Conv) : LogSeq :=
  let conv := inst.getD .power
  ⟨lin, lin.map fun v => lin2db v conv, conv⟩

/-- `LogarithmicSequence.__new__`, `logarithmic.py` 259-296: view on a plain array, after which the
conversion is stored. -/
noncomputable def LogSeq.new (values : List ℝ) (vt : ValueType) (conv : Conv) : LogSeq :=
  let scalar := match vt with
    | .lin => values
    | .db => values.map fun v => db2lin v conv
  { LogSeq.finalize scalar none with conv := conv }

/-- `__getitem__` with a non-negative integer, `logarithmic.py` 342-348. -/
noncomputable def LogSeq.get (s : LogSeq) (i : Nat) : Except PyErr Log :=
  match s.lin[i]?, s.dbs[i]? with
  | some l, some d => Log.fromTuple l d s.conv
  | _, _ => .error .index

/-- `tolist`, `logarithmic.py` 328-340. -/
noncomputable def LogSeq.toList (s : LogSeq) : Except PyErr (List Log) :=
  (s.lin.zip s.dbs).mapM fun p => Log.fromTuple p.1 p.2 s.conv

/-- `__getitem__` with a slice `a:b`: a view, `logarithmic.py` 348. -/
noncomputable def LogSeq.slice (s : LogSeq) (a b : Nat) : LogSeq :=
  LogSeq.finalize ((s.lin.take b).drop a) (some s.conv)

/-- `__setitem__` with a `Logarithmic`, `logarithmic.py` 350-355. -/
def LogSeq.setLog (s : LogSeq) (i : Nat) (item : Log) : Except PyErr LogSeq :=
  if i < s.lin.length then .ok { s with lin := s.lin.set i item.lin, dbs := s.dbs.set i item.db }
  else .error .index

/-- `__setitem__` with a plain number, `logarithmic.py` 357-358. -/
noncomputable def LogSeq.setNum (s : LogSeq) (i : Nat) (item : ℝ) : Except PyErr LogSeq :=
  if i < s.lin.length then
    .ok { s with lin := s.lin.set i item, dbs := s.dbs.set i (lin2db item s.conv) }
  else .error .index

/-- `__reduce__` and reconstruction (pickling), `logarithmic.py` 360-368. -/
noncomputable def LogSeq.pickle (s : LogSeq) : LogSeq := LogSeq.new s.lin .lin s.conv

/-! ### Specification -/

/-- The defining relation between decibels and ratios. -/
noncomputable def decibel (c : Conv) (x : ℝ) : ℝ :=
  match c with
  | .power => (10 : ℝ) ^ (x / 10)
  | .amplitude => (10 : ℝ) ^ (x / 20)

/-- Both stored values describe the same positive number. -/
def Log.Consistent (l : Log) : Prop := 0 < l.lin ∧ l.lin = decibel l.conv l.db

/-- C27: decibel to linear and back. -/
theorem C27_db_roundtrip (x : ℝ) (c : Conv) : lin2db (db2lin x c) c = x := by
  cases c <;> simp only [db2lin, lin2db] <;>
    rw [Real.logb_rpow (by norm_num) (by norm_num)] <;> ring

/-- C27: linear to decibel and back, for positive numbers. -/
theorem C27_lin_roundtrip (x : ℝ) (hx : 0 < x) (c : Conv) : db2lin (lin2db x c) c = x := by
  cases c <;> simp only [db2lin, lin2db]
  · rw [mul_div_cancel_left₀ _ (by norm_num), Real.rpow_logb (by norm_num) (by norm_num) hx]
  · rw [mul_div_cancel_left₀ _ (by norm_num), Real.rpow_logb (by norm_num) (by norm_num) hx]

theorem decibel_eq (c : Conv) (x : ℝ) : decibel c x = db2lin x c := by cases c <;> rfl

theorem db2lin_pos (x : ℝ) (c : Conv) : 0 < db2lin x c := by
  cases c <;> exact Real.rpow_pos_of_pos (by norm_num) _

/-- C27: construction from decibels always succeeds with matching values. -/
theorem C27_from_db (x : ℝ) (c : Conv) :
    ∃ l, Log.new x .db c = .ok l ∧ l.db = x ∧ l.lin = decibel c x ∧ l.Consistent ∧ l.conv = c := by
  refine ⟨⟨db2lin x c, x, c⟩, ?_, rfl, (decibel_eq c x).symm, ⟨db2lin_pos x c, (decibel_eq c x).symm⟩, rfl⟩
  simp only [Log.new, Log.init]
  rw [if_neg (not_le.mpr (db2lin_pos x c))]

/-- C27: construction from linear values succeeds exactly for positive ones, with matching values. -/
theorem C27_from_lin (x : ℝ) (c : Conv) :
    (0 < x → ∃ l, Log.new x .lin c = .ok l ∧ l.lin = x ∧ l.Consistent ∧ l.conv = c) ∧
    (x ≤ 0 → Log.new x .lin c = .error .value) := by
  constructor
  · intro hx
    refine ⟨⟨x, lin2db x c, c⟩, ?_, rfl, ⟨hx, ?_⟩, rfl⟩
    · simp only [Log.new, Log.init]
      rw [if_neg (not_le.mpr hx)]
    · rw [decibel_eq]; exact (C27_lin_roundtrip x hx c).symm
  · intro hx
    simp only [Log.new, Log.init]
    rw [if_pos hx]

/-- Arithmetic expressions over logarithmic numbers. -/
inductive Expr where
  | lit (x : ℝ) (vt : ValueType) (c : Conv)
  | add (a b : Expr)
  | sub (a b : Expr)
  | mul (a b : Expr)
  | div (a b : Expr)

/-- Evaluation by the operators of `Logarithmic`. -/
noncomputable def Expr.eval : Expr → Except PyErr Log
  | .lit x vt c => Log.new x vt c
  | .add a b => do
    let x ← a.eval
    let y ← b.eval
    x.add y
  | .sub a b => do
    let x ← a.eval
    let y ← b.eval
    x.sub y
  | .mul a b => do
    let x ← a.eval
    let y ← b.eval
    x.mul y
  | .div a b => do
    let x ← a.eval
    let y ← b.eval
    x.div y

/-- Real value of an expression. -/
noncomputable def Expr.val : Expr → ℝ
  | .lit x .lin _ => x
  | .lit x .db c => decibel c x
  | .add a b => a.val + b.val
  | .sub a b => a.val - b.val
  | .mul a b => a.val * b.val
  | .div a b => a.val / b.val

/-- All intermediate results are positive. -/
def Expr.Positive : Expr → Prop
  | .lit x .lin _ => 0 < x
  | .lit _ .db _ => True
  | .add a b => a.Positive ∧ b.Positive
  | .sub a b => a.Positive ∧ b.Positive ∧ b.val < a.val
  | .mul a b => a.Positive ∧ b.Positive
  | .div a b => a.Positive ∧ b.Positive

/-- Conversion of the leftmost operand. -/
def Expr.conv : Expr → Conv
  | .lit _ _ c => c
  | .add a _ => a.conv
  | .sub a _ => a.conv
  | .mul a _ => a.conv
  | .div a _ => a.conv

/-- C27: every arithmetic expression over logarithmic numbers evaluates, provided that all
intermediate results are positive, to the number real arithmetic gives, and its decibel value
matches; the conversion is that of the leftmost operand, whatever the others are. -/
theorem C27_arithmetic (e : Expr) (h : e.Positive) :
    ∃ l, e.eval = .ok l ∧ l.lin = e.val ∧ l.Consistent ∧ l.conv = e.conv := by
  have step : ∀ (x : ℝ) (c : Conv), 0 < x →
      ∃ l, Log.new x .lin c = .ok l ∧ l.lin = x ∧ l.Consistent ∧ l.conv = c :=
    fun x c hx => (C27_from_lin x c).1 hx
  induction e with
  | lit x vt c =>
    cases vt with
    | lin => exact (C27_from_lin x c).1 h
    | db =>
      obtain ⟨l, h1, _, h3, h4, h5⟩ := C27_from_db x c
      exact ⟨l, h1, h3, h4, h5⟩
  | add a b iha ihb =>
    obtain ⟨x, ex, vx, cx, kx⟩ := iha h.1
    obtain ⟨y, ey, vy, cy, _⟩ := ihb h.2
    simp only [Expr.eval, ex, ey, bind, Except.bind, Log.add, Expr.val, Expr.conv, ← vx, ← vy, ← kx]
    exact step _ _ (add_pos cx.1 cy.1)
  | sub a b iha ihb =>
    obtain ⟨x, ex, vx, cx, kx⟩ := iha h.1
    obtain ⟨y, ey, vy, cy, _⟩ := ihb h.2.1
    have := h.2.2
    simp only [Expr.eval, ex, ey, bind, Except.bind, Log.sub, Expr.val, Expr.conv, ← vx, ← vy, ← kx]
    exact step _ _ (by rw [vx, vy]; linarith)
  | mul a b iha ihb =>
    obtain ⟨x, ex, vx, cx, kx⟩ := iha h.1
    obtain ⟨y, ey, vy, cy, _⟩ := ihb h.2
    simp only [Expr.eval, ex, ey, bind, Except.bind, Log.mul, Expr.val, Expr.conv, ← vx, ← vy, ← kx]
    exact step _ _ (mul_pos cx.1 cy.1)
  | div a b iha ihb =>
    obtain ⟨x, ex, vx, cx, kx⟩ := iha h.1
    obtain ⟨y, ey, vy, cy, _⟩ := ihb h.2
    simp only [Expr.eval, ex, ey, bind, Except.bind, Log.div, Expr.val, Expr.conv, ← vx, ← vy, ← kx]
    exact step _ _ (div_pos cx.1 cy.1)

/-- C27: decibel values of products and quotients add and subtract. -/
theorem C27_product_adds_decibels (a b : Log) (ha : a.Consistent) (hb : b.Consistent)
    (hc : a.conv = b.conv) :
    (∃ l, a.mul b = .ok l ∧ l.db = a.db + b.db) ∧ (∃ l, a.div b = .ok l ∧ l.db = a.db - b.db) := by
  have hdb : ∀ l : Log, l.Consistent → l.db = lin2db l.lin l.conv := by
    intro l hl
    rw [hl.2, decibel_eq, C27_db_roundtrip]
  constructor
  · obtain ⟨l, h1, h2, h3, h4⟩ := (C27_from_lin (a.lin * b.lin) a.conv).1 (mul_pos ha.1 hb.1)
    refine ⟨l, h1, ?_⟩
    rw [hdb l h3, hdb a ha, hdb b hb, h2, h4, ← hc]
    cases a.conv <;> simp only [lin2db] <;> rw [Real.logb_mul ha.1.ne' hb.1.ne'] <;> ring
  · obtain ⟨l, h1, h2, h3, h4⟩ := (C27_from_lin (a.lin / b.lin) a.conv).1 (div_pos ha.1 hb.1)
    refine ⟨l, h1, ?_⟩
    rw [hdb l h3, hdb a ha, hdb b hb, h2, h4, ← hc]
    cases a.conv <;> simp only [lin2db] <;> rw [Real.logb_div ha.1.ne' hb.1.ne'] <;> ring

/-- C27: pickling returns the same number. -/
theorem C27_pickle (a : Log) (ha : a.Consistent) : a.pickle = .ok a := by
  simp only [Log.pickle, Log.fromTuple, Log.init]
  rw [if_neg (not_le.mpr ha.1)]

/-! ### Sequences -/

/-- Operations that yield or change a sequence. -/
inductive SeqOp where
  | setLog (i : Nat) (item : Log)
  | setNum (i : Nat) (x : ℝ)
  | slice (a b : Nat)
  | pickle

noncomputable def SeqOp.run (s : LogSeq) : SeqOp → Except PyErr LogSeq
  | .setLog i item => s.setLog i item
  | .setNum i x => s.setNum i x
  | .slice a b => .ok (s.slice a b)
  | .pickle => .ok s.pickle

/-- Admissible arguments: positive, and logarithmic items in the sequence's own conversion. -/
def SeqOp.Ok (c : Conv) : SeqOp → Prop
  | .setLog _ item => item.Consistent ∧ item.conv = c
  | .setNum _ x => 0 < x
  | _ => True

noncomputable def runOps (s : LogSeq) : List SeqOp → Except PyErr LogSeq
  | [] => .ok s
  | o :: os => do
    let r ← o.run s
    runOps r os

/-- Every element is consistent. -/
def LogSeq.Consistent (s : LogSeq) : Prop :=
  s.dbs = s.lin.map (fun v => lin2db v s.conv) ∧ ∀ v ∈ s.lin, 0 < v

theorem seq_get (s : LogSeq) (h : s.Consistent) (i : Nat) (hi : i < s.lin.length) :
    ∃ l, s.get i = .ok l ∧ l.Consistent ∧ l.conv = s.conv ∧ s.lin[i]? = some l.lin := by
  have h1 : s.lin[i]? = some s.lin[i] := List.getElem?_eq_getElem hi
  have h2 : s.dbs[i]? = some (lin2db s.lin[i] s.conv) := by
    rw [h.1, List.getElem?_map, h1]; rfl
  have hp := h.2 _ (List.getElem_mem hi)
  unfold LogSeq.get
  rw [h1, h2]
  refine ⟨⟨s.lin[i], lin2db s.lin[i] s.conv, s.conv⟩, ?_, ⟨hp, ?_⟩, rfl, rfl⟩
  · simp only [Log.fromTuple, Log.init]; rw [if_neg (not_le.mpr hp)]
  · rw [decibel_eq]; exact (C27_lin_roundtrip _ hp _).symm

theorem op_consistent (s : LogSeq) (h : s.Consistent) (o : SeqOp) (r : LogSeq)
    (hr : o.run s = .ok r) (ho : o.Ok s.conv) (hc : o = .pickle → s.conv = .power) :
    r.Consistent ∧ r.conv = s.conv := by
  cases o with
  | setLog i item =>
    simp only [SeqOp.run, LogSeq.setLog] at hr
    split at hr
    · obtain rfl := Except.ok.inj hr
      refine ⟨⟨?_, ?_⟩, rfl⟩
      · dsimp only
        rw [List.map_set, h.1, ← ho.2]
        congr 1
        rw [ho.1.2, decibel_eq, C27_db_roundtrip]
      · intro v hv
        rcases List.mem_or_eq_of_mem_set hv with hv | rfl
        · exact h.2 v hv
        · exact ho.1.1
    · cases hr
  | setNum i x =>
    simp only [SeqOp.run, LogSeq.setNum] at hr
    split at hr
    · obtain rfl := Except.ok.inj hr
      refine ⟨⟨?_, ?_⟩, rfl⟩
      · dsimp only; rw [List.map_set, h.1]
      · intro v hv
        rcases List.mem_or_eq_of_mem_set hv with hv | rfl
        · exact h.2 v hv
        · exact ho
    · cases hr
  | slice a b =>
    obtain rfl := Except.ok.inj hr
    exact ⟨⟨rfl, fun v hv => h.2 v (List.mem_of_mem_take (List.mem_of_mem_drop hv))⟩, rfl⟩
  | pickle =>
    obtain rfl := Except.ok.inj hr
    have hp := hc rfl
    refine ⟨⟨?_, h.2⟩, rfl⟩
    simp only [LogSeq.pickle, LogSeq.new, LogSeq.finalize, Option.getD_none, hp]

/-- C27 for sequences in power decibels: after construction and any history of element assignments,
slicing and pickling, every element read back has matching linear and decibel values.  Missing for
the full claim: amplitude sequences (`C27_amplitude_sequence_fails`) and items of another
conversion (`C27_mixed_item_fails`). -/
theorem C27_sequence_partial (values : List ℝ) (vt : ValueType)
    (hv : vt = .lin → ∀ v ∈ values, 0 < v) (ops : List SeqOp) (hops : ∀ o ∈ ops, o.Ok .power)
    (r : LogSeq) (hr : runOps (LogSeq.new values vt .power) ops = .ok r) (i : Nat)
    (hi : i < r.lin.length) :
    ∃ l, r.get i = .ok l ∧ l.Consistent ∧ r.lin[i]? = some l.lin := by
  have h0 : (LogSeq.new values vt .power).Consistent := by
    cases vt with
    | lin => exact ⟨rfl, hv rfl⟩
    | db =>
      refine ⟨rfl, fun v hv' => ?_⟩
      obtain ⟨x, _, rfl⟩ := List.mem_map.mp hv'
      exact db2lin_pos x .power
  have hc : (LogSeq.new values vt .power).conv = .power := rfl
  generalize LogSeq.new values vt .power = s at *
  have hfin : r.Consistent ∧ r.conv = .power := by
    induction ops generalizing s with
    | nil => obtain rfl := Except.ok.inj hr; exact ⟨h0, hc⟩
    | cons o os ih =>
      simp only [runOps, bind, Except.bind] at hr
      cases hx : o.run s with
      | error e => rw [hx] at hr; cases hr
      | ok q =>
        rw [hx] at hr
        obtain ⟨c1, c2⟩ := op_consistent s h0 o q hx (by rw [hc]; exact hops o (by simp)) (fun _ => hc)
        exact ih (fun o' ho' => hops o' (by simp [ho'])) q hr c1 (by rw [c2, hc])
  obtain ⟨l, h1, h2, _, h4⟩ := seq_get r hfin.1 i hi
  exact ⟨l, h1, h2, h4⟩

/-- C27 fails for amplitude sequences: the elements of `dB(20, 40, conversion=AMPLITUDE)` have the
right linear values but half the decibels, for any values. -/
theorem C27_amplitude_sequence_fails (values : List ℝ) (i : Nat) (x : ℝ) (hx : values[i]? = some x) :
    ∃ l, (LogSeq.new values .db .amplitude).get i = .ok l ∧ l.lin = decibel .amplitude x ∧
      l.db = x / 2 ∧ (x ≠ 0 → ¬ l.Consistent) := by
  have h1 : (LogSeq.new values .db .amplitude).lin[i]? = some (db2lin x .amplitude) := by
    simp [LogSeq.new, LogSeq.finalize, hx]
  have h2 : (LogSeq.new values .db .amplitude).dbs[i]? = some (lin2db (db2lin x .amplitude) .power) := by
    simp [LogSeq.new, LogSeq.finalize, hx]
  have h3 : lin2db (db2lin x .amplitude) .power = x / 2 := by
    simp only [lin2db, db2lin]
    rw [Real.logb_rpow (by norm_num) (by norm_num)]; ring
  refine ⟨⟨db2lin x .amplitude, x / 2, .amplitude⟩, ?_, rfl, rfl, ?_⟩
  · unfold LogSeq.get
    rw [h1, h2, h3]
    simp only [Log.fromTuple, Log.init]
    rw [if_neg (not_le.mpr (db2lin_pos x .amplitude))]
    rfl
  · intro hx0 hcon
    have h4 := hcon.2
    rw [decibel_eq] at h4
    have h5 := congrArg (fun y => lin2db y .amplitude) h4
    simp only [C27_db_roundtrip] at h5
    exact hx0 (by linarith)

/-- C27 fails for items of another conversion: `6 dB` of power stored into an amplitude sequence
reads back as `6 dB` of amplitude with the linear value of `6 dB` of power. -/
theorem C27_mixed_item_fails (s : LogSeq) (hs : s.conv = .amplitude) (i : Nat)
    (hi : i < s.lin.length) (hl : s.dbs.length = s.lin.length) (item : Log) (h : item.Consistent)
    (hp : item.conv = .power) (h0 : item.db ≠ 0) :
    ∃ r l, s.setLog i item = .ok r ∧ r.get i = .ok l ∧ ¬ l.Consistent := by
  refine ⟨_, ⟨item.lin, item.db, .amplitude⟩, by rw [LogSeq.setLog, if_pos hi], ?_, ?_⟩
  · unfold LogSeq.get
    dsimp only
    rw [List.getElem?_set_self hi, List.getElem?_set_self (by omega)]
    simp only [Log.fromTuple, Log.init, hs]
    rw [if_neg (not_le.mpr h.1)]
  · intro hcon
    have h1 := h.2
    have h2 := hcon.2
    rw [hp, decibel_eq] at h1
    rw [decibel_eq] at h2
    dsimp only at h2
    rw [h1] at h2
    have h5 := congrArg (fun y => lin2db y .amplitude) h2
    simp only [C27_db_roundtrip] at h5
    simp only [lin2db, db2lin] at h5
    rw [Real.logb_rpow (by norm_num) (by norm_num)] at h5
    exact h0 (by linarith)

/-- Non-vacuity of `C27_arithmetic`: mixed conversions and all operators. -/
example : (Expr.div (.mul (.lit 3 .db .power) (.lit 2 .lin .amplitude))
    (.sub (.lit 2 .lin .power) (.lit 1 .lin .power))).Positive := by
  norm_num [Expr.Positive, Expr.val]

example : ∃ r, runOps (LogSeq.new [3, 6, 9] .db .power)
    [.setNum 1 2, .slice 1 3, .setLog 0 ⟨1, 0, .power⟩, .pickle] = .ok r ∧ r.lin.length = 2 := by
  refine ⟨_, rfl, ?_⟩
  simp [LogSeq.pickle, LogSeq.new, LogSeq.finalize, LogSeq.slice]

end Verif.Core
