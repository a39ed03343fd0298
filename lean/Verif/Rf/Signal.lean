import Verif.Np
import Mathlib.Data.Rat.Defs
import Mathlib.Algebra.Order.Ring.Rat
import Mathlib.Algebra.Star.Basic
import Mathlib.Analysis.SpecialFunctions.Complex.Circle
import Mathlib.Analysis.SpecialFunctions.Trigonometric.Basic
import Mathlib.Tactic.Ring
import Mathlib.Tactic.Linarith

/-!
# C66: carrier frequencies and noise powers of radio-frequency signals

`hermespy/simulation/rf/signal.py`, `block.py` (`propagate`), `noise/model.py` (`AWGNRealization`) and the
blocks `mixers.py`, `x4.py`, `shift.py`, `split.py`, `sum.py`, `source.py`.

A signal is the list of its streams, each a list of samples, with its common and its per-stream meta data.
Frequencies, powers, rates and delays are rational numbers; samples are elements of an arbitrary type.
-/

namespace Verif.Rf.Sig

/-- `RFSignal`, `signal.py` 20-29, over the attributes of `DenseSignal` (`core/signal_model.py` 1212-1219).
The number of samples is kept for signals without streams. -/
structure RfSignal (α : Type) where
  rows : List (List α)
  samples : Nat
  rate : ℚ
  /-- `carrier_frequency`, the attribute inherited from `Signal` -/
  carrier : ℚ
  /-- `noise_power`, the attribute inherited from `Signal` -/
  noise : ℚ
  delay : ℚ
  /-- `carrier_frequencies` -/
  carriers : List ℚ
  /-- `noise_powers` -/
  noises : List ℚ

variable {α : Type}

/-- `RFSignal.__new__`, `signal.py` 31-83, with a buffer; the common carrier frequency and noise power are
those of the first stream.  The setters of `Signal` refuse negative values (`core/signal_model.py` 970-973,
987-990, 1006-1009), those of `RFSignal` arrays of another size (94-117). -/
def new (rows : List (List α)) (samples : Nat) (rate : ℚ) (carriers noises : Option (List ℚ)) (delay : ℚ) :
    Except PyErr (RfSignal α) :=
  let cs := carriers.getD (List.replicate rows.length 0)
  let ns := noises.getD (List.replicate rows.length 0)
  let c := cs.head?.getD 0
  let n := ns.head?.getD 0
  if c < 0 then .error .value
  else if n < 0 then .error .value
  else if delay < 0 then .error .value
  else if cs.length ≠ rows.length then .error .value
  else if ns.length ≠ rows.length then .error .value
  else .ok
    { rows := rows
      samples := samples
      rate := rate
      carrier := c
      noise := n
      delay := delay
      carriers := cs
      noises := ns }

/-- `__array_finalize__`, `signal.py` 119-137 and `core/signal_model.py` 1322-1333: numpy has created an
array with the given streams from a signal.  The meta data of the leading streams is taken over, which the
setters refuse if there are not enough of them. -/
def finalize (s : RfSignal α) (rows : List (List α)) (samples : Nat) : Except PyErr (RfSignal α) :=
  if (s.carriers.take rows.length).length ≠ rows.length then .error .value
  else if (s.noises.take rows.length).length ≠ rows.length then .error .value
  else .ok
    { s with
      rows := rows
      samples := samples
      carriers := s.carriers.take rows.length
      noises := s.noises.take rows.length }

/-- Selection of list elements by index, `IndexError` outside of the list. -/
def pick {β : Type} (xs : List β) : List Nat → Except PyErr (List β)
  | [] => .ok []
  | i :: sel =>
    match xs[i]?, pick xs sel with
    | some x, .ok ys => .ok (x :: ys)
    | some _, .error e => .error e
    | none, _ => .error .index

/-- `signal[sel, :m]` for a list of non-negative stream indices, `signal.py` 139-156.  A single index `i` is
`[i]` (`core/signal_model.py` 1346-1349) and a stream slice `a:b` is the list of the indices within it. -/
def select (s : RfSignal α) (sel : List Nat) (m : Nat) : Except PyErr (RfSignal α) := do
  let rows ← pick s.rows sel
  let r ← finalize s (rows.map (List.take m)) (min m s.samples)
  let cs ← pick s.carriers sel
  let ns ← pick s.noises sel
  if cs.length ≠ r.rows.length then throw .value
  if ns.length ≠ r.rows.length then throw .value
  return { r with carriers := cs, noises := ns }

/-- The stream indices of the slice `a:b`. -/
def sliceSel (n a b : Nat) : List Nat := (List.range (min b n)).drop a

/-- numpy's assignment to the elements `sel`, in order, a single value being broadcast; `g` combines the
assigned value with the old element. -/
def putWith {β γ : Type} (g : γ → β → β) (xs : List β) (sel : List Nat) (vs : List γ) :
    Except PyErr (List β) :=
  if ∃ i ∈ sel, xs.length ≤ i then .error .index
  else if vs.length = sel.length then .ok ((sel.zip vs).foldl (fun l iv => l.modify iv.1 (g iv.2)) xs)
  else match vs with
    | [v] => .ok ((sel.zip (List.replicate sel.length v)).foldl (fun l iv => l.modify iv.1 (g iv.2)) xs)
    | _ => .error .value

/-- Assignment to the elements `sel` of an array. -/
def put (xs : List ℚ) (sel : List Nat) (vs : List ℚ) : Except PyErr (List ℚ) :=
  putWith (fun v _ => v) xs sel vs

/-- Assignment of the first `m` samples of the streams `sel`. -/
def putRows (rows : List (List α)) (sel : List Nat) (m : Nat) (vs : List (List α)) :
    Except PyErr (List (List α)) :=
  putWith (fun v old => v ++ old.drop m) rows sel vs

/-- Update of a common attribute by `__setitem__`, `signal.py` 250-253: only if all streams agree; the setter
refuses negative values. -/
def common (xs : List ℚ) (old : ℚ) : Except PyErr ℚ :=
  match xs with
  | [] => .error .index
  | x :: _ => if xs.all (· = x) then (if x < 0 then .error .value else .ok x) else .ok old

/-- `signal[sel, :m] = value` for another radio-frequency signal, `signal.py` 237-253.  The value must have
`m` samples (a value with a single sample would be broadcast along time; not modelled), and `m` may not
exceed the number of samples of the signal. -/
def assign (s : RfSignal α) (sel : List Nat) (m : Nat) (v : RfSignal α) : Except PyErr (RfSignal α) := do
  if v.samples ≠ min m s.samples then throw .value
  let rows ← putRows s.rows sel v.samples v.rows
  let cs ← put s.carriers sel v.carriers
  let ns ← put s.noises sel v.noises
  let c ← common cs s.carrier
  let n ← common ns s.noise
  return { s with rows := rows, carriers := cs, noises := ns, carrier := c, noise := n }

/-- `copy`, `signal.py` 272-282. -/
def copy (s : RfSignal α) : Except PyErr (RfSignal α) :=
  new s.rows s.samples s.rate (some s.carriers) (some s.noises) s.delay

/-- `resample`, `signal.py` 255-270, for a given resampling of all streams. -/
def resample (s : RfSignal α) (rate : ℚ) (rows : List (List α)) (samples : Nat) :
    Except PyErr (RfSignal α) :=
  if s.rate = rate then .ok s
  else new rows samples rate (some s.carriers) (some s.noises) s.delay

/-- What `serialize`, `signal.py` 284-290, stores. -/
structure Record (α : Type) where
  samples : List (List α) × Nat
  rate : ℚ
  carriers : List ℚ
  noises : List ℚ
  delay : ℚ

/-- `serialize`, `signal.py` 284-290. -/
def serialize (s : RfSignal α) : Record α where
  samples := (s.rows, s.samples)
  rate := s.rate
  carriers := s.carriers
  noises := s.noises
  delay := s.delay

/-- `Deserialize`, `signal.py` 292-309. -/
def deserialize (r : Record α) : Except PyErr (RfSignal α) :=
  new r.samples.1 r.samples.2 r.rate (some r.carriers) (some r.noises) r.delay

/-- A meta datum given to `FromNDArray`: absent, a number, or an array. -/
inductive Meta where
  | none
  | scalar (x : ℚ)
  | array (xs : List ℚ)

/-- The per-stream values set by `FromNDArray`, `signal.py` 197-211; arrays of another size are ignored. -/
def Meta.perStream (n : Nat) : Meta → List ℚ
  | .none => List.replicate n 0
  | .scalar x => List.replicate n x
  | .array xs => if xs.length = n then xs else List.replicate n 0

/-- `FromNDArray` of a matrix, `signal.py` 158-213.  A plain array has no meta data: the common carrier
frequency and noise power are the defaults of `core/signal_model.py` 1330-1332. -/
def fromNDArray (rows : List (List α)) (samples : Nat) (rate : ℚ) (c n : Meta) (delay : ℚ) :
    Except PyErr (RfSignal α) :=
  if delay < 0 then .error .value
  else .ok
    { rows := rows
      samples := samples
      rate := rate
      carrier := 0
      noise := 0
      delay := delay
      carriers := c.perStream rows.length
      noises := n.perStream rows.length }

/-- `FromDense`, `signal.py` 215-235. -/
def fromDense (rows : List (List α)) (samples : Nat) (rate carrier noise delay : ℚ) : RfSignal α where
  rows := rows
  samples := samples
  rate := rate
  carrier := carrier
  noise := noise
  delay := delay
  carriers := List.replicate rows.length carrier
  noises := List.replicate rows.length noise

/-- The carrier frequency setter of `Signal`, `core/signal_model.py` 959-973. -/
def setCarrier (s : RfSignal α) (f : ℚ) : Except PyErr (RfSignal α) :=
  if f < 0 then .error .value else .ok { s with carrier := f }

/-- `AWGNRealization.add_to`, `noise/model.py` 143-160, for the drawn noise samples of each stream (already
scaled). -/
def addNoise [Add α] (s : RfSignal α) (power : ℚ) (w : Nat → Nat → α) : Except PyErr (RfSignal α) :=
  if power = 0 then .ok s
  else do
    let c ← copy s
    if power < 0 then throw .value
    return { c with rows := c.rows.mapIdx (fun k r => r.mapIdx (fun i x => x + w k i)), noise := power }

/-! ### Blocks -/

/-- `MixerType`. -/
inductive MixerType where
  | up | down
  deriving DecidableEq

/-- `Mixer._propagate`, `mixers.py` 139-154: stream 0 is mixed with the local oscillator on stream 1.  The
product of two signals is created by numpy from the first of them. -/
def mixer [Mul α] [Star α] (t : MixerType) (s : RfSignal α) : Except PyErr (RfSignal α) := do
  let fs ← pick s.carriers [1, 0]
  let a ← select s [0] s.samples
  let b ← select s [1] s.samples
  let f := match t, fs with
    | .up, [lo, fin] => fin + lo
    | .down, [lo, fin] => fin - lo
    | _, _ => 0
  let rows := match t with
    | .up => List.zipWith (List.zipWith (· * ·)) a.rows b.rows
    | .down => List.zipWith (List.zipWith (fun x y => x * star y)) a.rows b.rows
  let o ← finalize a rows s.samples
  setCarrier { o with carriers := o.carriers.set 0 f } f

/-- `IdealMixer._propagate`, `mixers.py` 288-302, for the frequency of the local oscillator chosen by `realize`
(285: the configured one or, if zero, the carrier frequency of the device). -/
def idealMixer (t : MixerType) (lo : ℚ) (s : RfSignal α) : Except PyErr (RfSignal α) := do
  let fs ← pick s.carriers [0]
  let f := match t with
    | .up => |fs.headD 0 + lo|
    | .down => |fs.headD 0 - lo|
  let a ← select s [0] s.samples
  let o ← copy a
  setCarrier { o with carriers := o.carriers.set 0 f } f

/-- `X4._propagate`, `x4.py` 68-73. -/
def x4 (s : RfSignal α) : Except PyErr (RfSignal α) := do
  let o ← copy s
  let cs := s.carriers.map (· * 4)
  if cs.length ≠ o.rows.length then throw .value
  return { o with carriers := cs }

/-- `Split._propagate`, `split.py` 58-60: `np.tile` repeats the single stream; numpy creates the repeated
array from the selected stream. -/
def split (n : Nat) (s : RfSignal α) : Except PyErr (RfSignal α) := do
  let a ← select s [0] s.samples
  finalize a ((List.replicate n a.rows).flatten) s.samples

/-- `Sum._propagate`, `sum.py` 63-65: numpy's reduction creates its result from the summed signal. -/
def sum [Add α] [Zero α] (s : RfSignal α) : Except PyErr (RfSignal α) :=
  finalize s [s.rows.foldl (List.zipWith (· + ·)) (List.replicate s.samples 0)] s.samples

/-- `Shift._propagate`, `shift.py` 99-101, of a phase shifter with the given number of quantisation bits. -/
noncomputable def shift (phase : ℝ) (_quantizationBits : Nat) (s : RfSignal ℂ) : Except PyErr (RfSignal ℂ) :=
  finalize s (s.rows.map (List.map (· * Complex.exp (Complex.I * phase)))) s.samples

/-- `Source._propagate`, `source.py` 204-214, without phase noise. -/
def source (amplitude : α) (rate f : ℚ) (samples : Nat) : Except PyErr (RfSignal α) :=
  fromNDArray [List.replicate samples amplitude] samples rate (.array [f]) .none 0

/-- Padding of short signals before the anti-aliasing filter, `block.py` 207-234.  Second-order sections
have six coefficients, so that signals shorter than `(6 + 1) * 4` samples are padded. -/
def padShort [Zero α] (filter : Bool) (oversampling : Nat) (p : RfSignal α) : Except PyErr (RfSignal α) :=
  if filter = true ∧ 1 < oversampling ∧ p.samples < 28 then
    new (p.rows.map (fun r => r ++ List.replicate (28 - p.samples) 0)) 28 p.rate (some p.carriers)
      (some p.noises) p.delay
  else .ok p

/-- The anti-aliasing filter, `block.py` 239-250.  `filt` filters one stream; scipy's refusal to filter
signals that are still too short for a filter of high order is not modelled. -/
def antialias (filter : Bool) (oversampling : Nat) (bandwidth : ℚ) (filt : List α → List α) (samples : Nat)
    (noisy : RfSignal α) : Except PyErr (RfSignal α) :=
  if filter = true ∧ 1 < oversampling then
    new (noisy.rows.map filt) samples (bandwidth * oversampling) (some noisy.carriers) (some noisy.noises)
      noisy.delay
  else .ok noisy

/-- `RFBlock.propagate`, `block.py` 181-252.  `inner` is the block's `_propagate` and `w` the drawn noise. -/
def propagate [Add α] [Zero α] (numInputs : Nat) (inner : RfSignal α → Except PyErr (RfSignal α))
    (filter : Bool) (oversampling : Nat) (bandwidth : ℚ) (power : ℚ) (w : Nat → Nat → α)
    (filt : List α → List α) (s : RfSignal α) : Except PyErr (RfSignal α) :=
  if s.rows.length ≠ numInputs then .error .value
  else do
    let p ← inner s
    let padded ← padShort filter oversampling p
    let noisy ← addNoise padded power w
    let filtered ← antialias filter oversampling bandwidth filt padded.samples noisy
    select filtered (sliceSel filtered.rows.length 0 filtered.rows.length) p.samples

/-! ### The invariant -/

/-- One carrier frequency and one noise power per stream, and streams of equal length. -/
structure Aligned (s : RfSignal α) : Prop where
  carriers : s.carriers.length = s.rows.length
  noises : s.noises.length = s.rows.length
  rows : ∀ r ∈ s.rows, r.length = s.samples

theorem pick_ok {β : Type} (xs : List β) : ∀ (sel : List Nat), (∀ i ∈ sel, i < xs.length) →
    ∃ ys, pick xs sel = .ok ys ∧ ys.length = sel.length ∧
      ∀ k i : Nat, sel[k]? = some i → ys[k]? = xs[i]? := by
  intro sel
  induction sel with
  | nil => intro _; exact ⟨[], rfl, rfl, by simp⟩
  | cons a sel ih =>
    intro h
    obtain ⟨ys, h1, h2, h3⟩ := ih (fun i hi => h i (by simp [hi]))
    have ha := h a (by simp)
    refine ⟨xs[a] :: ys, ?_, by simp [h2], ?_⟩
    · rw [pick, List.getElem?_eq_getElem ha, h1]
    · intro k i hk
      cases k with
      | zero =>
        simp at hk
        subst hk
        simp [ha]
      | succ k => simpa using h3 k i (by simpa using hk)

theorem pick_length {β : Type} (xs : List β) : ∀ (sel : List Nat) (ys : List β), pick xs sel = .ok ys →
    ys.length = sel.length ∧ ∀ y ∈ ys, y ∈ xs := by
  intro sel
  induction sel with
  | nil =>
    intro ys h
    cases h
    simp
  | cons a sel ih =>
    intro ys h
    rw [pick] at h
    cases hx : xs[a]? with
    | none => rw [hx] at h; simp at h
    | some x =>
      cases hr : pick xs sel with
      | error e => rw [hx, hr] at h; simp at h
      | ok rest =>
        rw [hx, hr] at h
        cases h
        obtain ⟨h1, h2⟩ := ih rest hr
        refine ⟨by simp [h1], ?_⟩
        intro y hy
        rcases List.mem_cons.mp hy with rfl | hy
        · exact List.mem_of_getElem? hx
        · exact h2 y hy

theorem finalize_ok {s : RfSignal α} (hs : Aligned s) (rows : List (List α)) (m : Nat)
    (h : rows.length ≤ s.rows.length) :
    finalize s rows m = .ok
      { s with
        rows := rows
        samples := m
        carriers := s.carriers.take rows.length
        noises := s.noises.take rows.length } := by
  unfold finalize
  rw [if_neg (by rw [List.length_take, hs.carriers]; omega),
    if_neg (by rw [List.length_take, hs.noises]; omega)]

theorem finalize_error {s : RfSignal α} (hs : Aligned s) (rows : List (List α)) (m : Nat)
    (h : s.rows.length < rows.length) : finalize s rows m = .error .value := by
  unfold finalize
  rw [if_pos (by rw [List.length_take, hs.carriers]; omega)]

/-- C66, selecting streams: the selected streams come with the carrier frequency and the noise power each of
them had, for every list of at most as many indices as there are streams. -/
theorem C66_select {s : RfSignal α} (hs : Aligned s) (sel : List Nat) (hi : ∀ i ∈ sel, i < s.rows.length)
    (hn : sel.length ≤ s.rows.length) (m : Nat) :
    ∃ r, select s sel m = .ok r ∧ Aligned r ∧ r.rows.length = sel.length ∧ r.samples = min m s.samples ∧
      (∀ k i : Nat, sel[k]? = some i → r.rows[k]? = (s.rows[i]?).map (List.take m) ∧
        r.carriers[k]? = s.carriers[i]? ∧ r.noises[k]? = s.noises[i]?) ∧
      r.rate = s.rate ∧ r.delay = s.delay ∧ r.carrier = s.carrier ∧ r.noise = s.noise := by
  obtain ⟨rows, h1, h2, h3⟩ := pick_ok s.rows sel hi
  obtain ⟨cs, c1, c2, c3⟩ := pick_ok s.carriers sel (by rw [hs.carriers]; exact hi)
  obtain ⟨ns, n1, n2, n3⟩ := pick_ok s.noises sel (by rw [hs.noises]; exact hi)
  have hf := finalize_ok hs (rows.map (List.take m)) (min m s.samples) (by simp [h2, hn])
  refine ⟨{ s with rows := rows.map (List.take m), samples := min m s.samples, carriers := cs, noises := ns },
    ?_, ⟨?_, ?_, ?_⟩, ?_, rfl, ?_, rfl, rfl, rfl, rfl⟩
  · unfold select
    simp only [h1, c1, n1, bind, Except.bind, hf, List.length_map, c2, n2, h2, ne_eq, not_true_eq_false,
      if_false, pure, Except.pure]
  · simp [c2, h2]
  · simp [n2, h2]
  · intro r hr
    obtain ⟨x, hx, rfl⟩ := List.mem_map.mp hr
    rw [List.length_take, hs.rows x ((pick_length s.rows sel rows h1).2 x hx)]
  · simp [h2]
  · intro k i hk
    exact ⟨by rw [List.getElem?_map, h3 k i hk], c3 k i hk, n3 k i hk⟩

/-- C66 fails for selections longer than the signal, such as `signal[[0, 0], :]` of a single stream: numpy's
subclass hook runs before the meta data is selected and refuses them with a `ValueError`. -/
theorem C66_select_fails {s : RfSignal α} (hs : Aligned s) (sel : List Nat)
    (hi : ∀ i ∈ sel, i < s.rows.length) (hn : s.rows.length < sel.length) (m : Nat) :
    select s sel m = .error .value := by
  obtain ⟨rows, h1, h2, -⟩ := pick_ok s.rows sel hi
  unfold select
  simp only [h1, bind, Except.bind]
  rw [finalize_error hs _ _ (by simp [h2, hn])]

theorem foldl_modify_length {β γ : Type} (g : γ → β → β) (l : List (Nat × γ)) : ∀ xs : List β,
    (l.foldl (fun l iv => l.modify iv.1 (g iv.2)) xs).length = xs.length := by
  induction l with
  | nil => intro xs; rfl
  | cons a l ih => intro xs; rw [List.foldl_cons, ih, List.length_modify]

theorem foldl_modify_other {β γ : Type} (g : γ → β → β) (l : List (Nat × γ)) : ∀ (xs : List β) (i : Nat),
    i ∉ l.map (·.1) → (l.foldl (fun l iv => l.modify iv.1 (g iv.2)) xs)[i]? = xs[i]? := by
  induction l with
  | nil => intro xs i _; rfl
  | cons a l ih =>
    intro xs i h
    rw [List.map_cons, List.mem_cons, not_or] at h
    have hne : a.1 ≠ i := fun h' => h.1 h'.symm
    rw [List.foldl_cons, ih _ i h.2, List.getElem?_modify]
    simp [hne]

theorem foldl_modify_at {β γ : Type} (g : γ → β → β) (l : List (Nat × γ)) : ∀ (xs : List β) (i : Nat) (v : γ),
    (l.map (·.1)).Nodup → (i, v) ∈ l →
    (l.foldl (fun l iv => l.modify iv.1 (g iv.2)) xs)[i]? = (xs[i]?).map (g v) := by
  induction l with
  | nil => intro xs i v _ h; simp at h
  | cons a l ih =>
    intro xs i v hn h
    rw [List.map_cons, List.nodup_cons] at hn
    rw [List.foldl_cons]
    rcases List.mem_cons.mp h with rfl | h
    · rw [foldl_modify_other g l _ i hn.1, List.getElem?_modify]
      simp
    · have hne : a.1 ≠ i := fun hh => hn.1 (hh ▸ List.mem_map.mpr ⟨_, h, rfl⟩)
      rw [ih _ i v hn.2 h, List.getElem?_modify]
      simp [hne]

/-- The value assigned to the `k`-th of the selected elements. -/
def given {γ : Type} (vs : List γ) (sel : List Nat) (k : Nat) : Option γ :=
  if vs.length = sel.length then vs[k]? else vs[0]?

theorem putWith_ok {β γ : Type} (g : γ → β → β) (xs : List β) (sel : List Nat) (vs : List γ)
    (hi : ∀ i ∈ sel, i < xs.length) (hn : sel.Nodup) (hl : vs.length = sel.length ∨ vs.length = 1) :
    ∃ ys, putWith g xs sel vs = .ok ys ∧ ys.length = xs.length ∧
      (∀ i, i ∉ sel → ys[i]? = xs[i]?) ∧
      ∀ k i : Nat, sel[k]? = some i → ∃ v, given vs sel k = some v ∧ ys[i]? = (xs[i]?).map (g v) := by
  have key : ∀ us : List γ, us.length = sel.length →
      let ys := (sel.zip us).foldl (fun l iv => l.modify iv.1 (g iv.2)) xs
      ys.length = xs.length ∧ (∀ i, i ∉ sel → ys[i]? = xs[i]?) ∧
      ∀ k i : Nat, sel[k]? = some i → ∃ v, us[k]? = some v ∧ ys[i]? = (xs[i]?).map (g v) := by
    intro us hu
    have hk : (sel.zip us).map (·.1) = sel := List.map_fst_zip hu.ge
    refine ⟨foldl_modify_length _ _ _, fun i h => foldl_modify_other _ _ _ _ (by rwa [hk]), ?_⟩
    intro k i h
    have hlt : k < sel.length := (List.getElem?_eq_some_iff.mp h).1
    have hku : k < us.length := by omega
    refine ⟨us[k], List.getElem?_eq_getElem hku, foldl_modify_at _ _ _ _ _ (by rwa [hk]) ?_⟩
    rw [List.mem_iff_getElem?]
    exact ⟨k, by rw [List.getElem?_zip_eq_some]; exact ⟨h, List.getElem?_eq_getElem hku⟩⟩
  have hno : ¬ ∃ i ∈ sel, xs.length ≤ i := by
    rintro ⟨i, h, h'⟩
    have := hi i h
    omega
  unfold putWith given
  rw [if_neg hno]
  by_cases he : vs.length = sel.length
  · rw [if_pos he]
    simp only [if_pos he]
    obtain ⟨h1, h2, h3⟩ := key vs he
    exact ⟨_, rfl, h1, h2, h3⟩
  · rw [if_neg he]
    simp only [if_neg he]
    obtain ⟨v, rfl⟩ := List.length_eq_one_iff.mp (hl.resolve_left he)
    obtain ⟨h1, h2, h3⟩ := key (List.replicate sel.length v) (by simp)
    refine ⟨_, rfl, h1, h2, fun k i h => ?_⟩
    obtain ⟨u, hu, hy⟩ := h3 k i h
    refine ⟨v, rfl, ?_⟩
    have : u = v := by
      have := List.mem_of_getElem? hu
      exact List.eq_of_mem_replicate this
    subst this
    exact hy

theorem putWith_length {β γ : Type} (g : γ → β → β) (xs : List β) (sel : List Nat) (vs : List γ) (ys : List β)
    (h : putWith g xs sel vs = .ok ys) : ys.length = xs.length ∧
      ∀ P : β → Prop, (∀ x ∈ xs, P x) → (∀ v ∈ vs, ∀ x, P x → P (g v x)) →
        ∀ y ∈ ys, P y := by
  have key : ∀ (l : List (Nat × γ)) (xs : List β) (P : β → Prop), (∀ x ∈ xs, P x) →
      (∀ iv ∈ l, ∀ x, P x → P (g iv.2 x)) →
      ∀ y ∈ l.foldl (fun l iv => l.modify iv.1 (g iv.2)) xs, P y := by
    intro l
    induction l with
    | nil => intro xs P h _; exact h
    | cons a l ih =>
      intro xs P h hg
      rw [List.foldl_cons]
      refine ih _ P ?_ (fun iv hiv => hg iv (by simp [hiv]))
      intro y hy
      obtain ⟨i, hi⟩ := List.mem_iff_getElem?.mp hy
      rw [List.getElem?_modify] at hi
      obtain ⟨x, hx, rfl⟩ := Option.map_eq_some_iff.mp hi
      have hpx := h x (List.mem_of_getElem? hx)
      split
      · exact hg a (by simp) x hpx
      · exact hpx
  unfold putWith at h
  split at h
  · simp at h
  split at h
  · cases h
    refine ⟨foldl_modify_length _ _ _, fun P h1 h2 => key _ _ P h1 ?_⟩
    intro iv hiv
    exact h2 iv.2 (List.of_mem_zip hiv).2
  · split at h
    · rename_i v _
      cases h
      refine ⟨foldl_modify_length _ _ _, fun P h1 h2 => key _ _ P h1 ?_⟩
      intro iv hiv
      have := List.eq_of_mem_replicate (List.of_mem_zip hiv).2
      exact h2 iv.2 (by simp [this])
    · simp at h

theorem common_ok (xs : List ℚ) (old : ℚ) (hx : xs ≠ []) (h0 : ∀ x ∈ xs, 0 ≤ x) :
    ∃ c, common xs old = .ok c ∧ (∀ f, (∀ x ∈ xs, x = f) → c = f) ∧
      ((¬ ∃ f, ∀ x ∈ xs, x = f) → c = old) := by
  cases xs with
  | nil => exact absurd rfl hx
  | cons x xs =>
    unfold common
    dsimp only
    split
    · rename_i h
      rw [if_neg (not_lt.mpr (h0 x (by simp)))]
      refine ⟨x, rfl, fun f hf => hf x (by simp), fun hne => ?_⟩
      exact absurd ⟨x, by simpa using h⟩ hne
    · rename_i h
      refine ⟨old, rfl, fun f hf => ?_, fun _ => rfl⟩
      exfalso
      apply h
      have hxf := hf x (by simp)
      simp only [List.all_eq_true, decide_eq_true_eq]
      intro y hy
      rw [hf y hy, hxf]

/-- C66, assigning streams: the assigned streams carry the samples, carrier frequencies and noise powers of
the value, all others keep theirs, and the common attributes follow as soon as all streams agree. -/
theorem C66_assign {s v : RfSignal α} (hs : Aligned s) (hv : Aligned v) (sel : List Nat)
    (hi : ∀ i ∈ sel, i < s.rows.length) (hn : sel.Nodup)
    (hl : v.rows.length = sel.length ∨ v.rows.length = 1) (m : Nat) (hm : v.samples = min m s.samples)
    (h0 : s.rows ≠ []) (hc : (∀ x ∈ s.carriers, 0 ≤ x) ∧ ∀ x ∈ v.carriers, 0 ≤ x)
    (hp : (∀ x ∈ s.noises, 0 ≤ x) ∧ ∀ x ∈ v.noises, 0 ≤ x) :
    ∃ r, assign s sel m v = .ok r ∧ Aligned r ∧ r.rows.length = s.rows.length ∧ r.samples = s.samples ∧
      (∀ i, i ∉ sel → r.rows[i]? = s.rows[i]? ∧ r.carriers[i]? = s.carriers[i]? ∧
        r.noises[i]? = s.noises[i]?) ∧
      (∀ k i : Nat, sel[k]? = some i → ∃ old row, s.rows[i]? = some old ∧ given v.rows sel k = some row ∧
        r.rows[i]? = some (row ++ old.drop v.samples) ∧ r.carriers[i]? = given v.carriers sel k ∧
        r.noises[i]? = given v.noises sel k) ∧
      (∀ f, (∀ x ∈ r.carriers, x = f) → r.carrier = f) ∧ (∀ f, (∀ x ∈ r.noises, x = f) → r.noise = f) ∧
      ((¬ ∃ f, ∀ x ∈ r.carriers, x = f) → r.carrier = s.carrier) ∧
      ((¬ ∃ f, ∀ x ∈ r.noises, x = f) → r.noise = s.noise) ∧ r.rate = s.rate ∧ r.delay = s.delay := by
  obtain ⟨rows, a1, a2, a3, a4⟩ := putWith_ok (fun v' (old : List α) => v' ++ old.drop v.samples) s.rows sel
    v.rows hi hn hl
  obtain ⟨cs, c1, c2, c3, c4⟩ := putWith_ok (fun (x : ℚ) (_ : ℚ) => x) s.carriers sel v.carriers
    (by rw [hs.carriers]; exact hi) hn (by rw [hv.carriers]; exact hl)
  obtain ⟨ns, n1, n2, n3, n4⟩ := putWith_ok (fun (x : ℚ) (_ : ℚ) => x) s.noises sel v.noises
    (by rw [hs.noises]; exact hi) hn (by rw [hv.noises]; exact hl)
  have hcs : ∀ x ∈ cs, 0 ≤ x := (putWith_length _ _ _ _ _ c1).2 (fun x => 0 ≤ x) hc.1
    (fun x hx _ _ => hc.2 x hx)
  have hns : ∀ x ∈ ns, 0 ≤ x := (putWith_length _ _ _ _ _ n1).2 (fun x => 0 ≤ x) hp.1
    (fun x hx _ _ => hp.2 x hx)
  have hpos : 0 < s.rows.length := List.length_pos_iff.mpr h0
  obtain ⟨c, d1, d2, d3⟩ := common_ok cs s.carrier
    (List.length_pos_iff.mp (by rw [c2, hs.carriers]; exact hpos)) hcs
  obtain ⟨n, e1, e2, e3⟩ := common_ok ns s.noise
    (List.length_pos_iff.mp (by rw [n2, hs.noises]; exact hpos)) hns
  refine ⟨{ s with rows := rows, carriers := cs, noises := ns, carrier := c, noise := n }, ?_,
    ⟨by rw [c2, hs.carriers, a2], by rw [n2, hs.noises, a2], ?_⟩, a2, rfl,
    fun i h => ⟨a3 i h, c3 i h, n3 i h⟩, ?_, d2, e2, d3, e3, rfl, rfl⟩
  · unfold assign putRows put
    rw [if_neg (by rw [hm]; simp)]
    simp only [a1, c1, n1, d1, e1, bind, Except.bind, pure, Except.pure]
  · refine (putWith_length _ _ _ _ _ a1).2 (fun r => r.length = s.samples) hs.rows ?_
    intro x hx old hold
    rw [List.length_append, List.length_drop, hv.rows x hx, hold, hm]
    omega
  · intro k i hk
    obtain ⟨row, r1, r2⟩ := a4 k i hk
    obtain ⟨x, x1, x2⟩ := c4 k i hk
    obtain ⟨y, y1, y2⟩ := n4 k i hk
    have hlt := hi i (List.mem_of_getElem? hk)
    refine ⟨s.rows[i], row, List.getElem?_eq_getElem hlt, r1, ?_, ?_, ?_⟩
    · rw [r2, List.getElem?_eq_getElem hlt]; rfl
    · rw [x2, x1, List.getElem?_eq_getElem (by rw [hs.carriers]; exact hlt)]; rfl
    · rw [y2, y1, List.getElem?_eq_getElem (by rw [hs.noises]; exact hlt)]; rfl

/-! ### Copies and recordings -/

/-- The values accepted by the setters. -/
structure Valid (s : RfSignal α) : Prop where
  aligned : Aligned s
  carriers : ∀ f ∈ s.carriers, 0 ≤ f
  noises : ∀ p ∈ s.noises, 0 ≤ p
  delay : 0 ≤ s.delay

theorem head_nonneg (xs : List ℚ) (h : ∀ x ∈ xs, 0 ≤ x) : 0 ≤ xs.head?.getD 0 := by
  cases xs with
  | nil => exact le_refl _
  | cons x xs => exact h x (by simp)

theorem new_ok (rows : List (List α)) (m : Nat) (rate : ℚ) (cs ns : List ℚ) (delay : ℚ)
    (hc : cs.length = rows.length) (hn : ns.length = rows.length) (hc0 : ∀ x ∈ cs, 0 ≤ x)
    (hn0 : ∀ x ∈ ns, 0 ≤ x) (hd : 0 ≤ delay) :
    new rows m rate (some cs) (some ns) delay = .ok
      { rows := rows
        samples := m
        rate := rate
        carrier := cs.head?.getD 0
        noise := ns.head?.getD 0
        delay := delay
        carriers := cs
        noises := ns } := by
  unfold new
  simp only [Option.getD_some]
  rw [if_neg (not_lt.mpr (head_nonneg cs hc0)), if_neg (not_lt.mpr (head_nonneg ns hn0)),
    if_neg (not_lt.mpr hd), if_neg (not_not.mpr hc), if_neg (not_not.mpr hn)]

theorem copy_ok {s : RfSignal α} (hs : Valid s) :
    copy s = .ok { s with carrier := s.carriers.head?.getD 0, noise := s.noises.head?.getD 0 } :=
  new_ok _ _ _ _ _ _ hs.aligned.carriers hs.aligned.noises hs.carriers hs.noises hs.delay

/-- C66, copies, recordings and changes of the sampling rate keep samples, delay and the carrier frequency
and noise power of every stream.  Missing for the full claim: the common attributes `carrier_frequency` and
`noise_power` are replaced by those of the first stream, see `C66_noise_fails`. -/
theorem C66_copy_partial {s : RfSignal α} (hs : Valid s) :
    (∃ r, copy s = .ok r ∧ r.rows = s.rows ∧ r.samples = s.samples ∧ r.rate = s.rate ∧ r.delay = s.delay ∧
      r.carriers = s.carriers ∧ r.noises = s.noises) ∧
    (∃ r, deserialize (serialize s) = .ok r ∧ r.rows = s.rows ∧ r.samples = s.samples ∧ r.rate = s.rate ∧
      r.delay = s.delay ∧ r.carriers = s.carriers ∧ r.noises = s.noises) ∧
    ∀ (rate : ℚ) (rows : List (List α)) (m : Nat), rows.length = s.rows.length → rate ≠ s.rate →
      ∃ r, resample s rate rows m = .ok r ∧ r.rows = rows ∧ r.samples = m ∧ r.rate = rate ∧
        r.delay = s.delay ∧ r.carriers = s.carriers ∧ r.noises = s.noises := by
  refine ⟨⟨_, copy_ok hs, rfl, rfl, rfl, rfl, rfl, rfl⟩, ⟨_, copy_ok hs, rfl, rfl, rfl, rfl, rfl, rfl⟩, ?_⟩
  intro rate rows m hr hne
  unfold resample
  rw [if_neg (fun h => hne h.symm)]
  exact ⟨_, new_ok rows m rate _ _ _ (by rw [hr]; exact hs.aligned.carriers)
    (by rw [hr]; exact hs.aligned.noises) hs.carriers hs.noises hs.delay, rfl, rfl, rfl, rfl, rfl, rfl⟩

/-! ### Noise -/

theorem addNoise_ok [Add α] {s : RfSignal α} (hs : Valid s) (p : ℚ) (hp : 0 < p) (w : Nat → Nat → α) :
    addNoise s p w = .ok
      { s with
        rows := s.rows.mapIdx (fun k r => r.mapIdx (fun i x => x + w k i))
        carrier := s.carriers.head?.getD 0
        noise := p } := by
  unfold addNoise
  rw [if_neg hp.ne', copy_ok hs]
  simp only [bind, Except.bind]
  rw [if_neg (not_lt.mpr hp.le)]
  rfl

theorem addNoise_valid [Add α] {s : RfSignal α} (hs : Valid s) (p : ℚ) (hp : 0 ≤ p) (w : Nat → Nat → α) :
    ∃ r, addNoise s p w = .ok r ∧ Valid r ∧ r.samples = s.samples ∧ r.rows.length = s.rows.length ∧
      r.carriers = s.carriers ∧ r.noises = s.noises ∧ r.delay = s.delay ∧ r.rate = s.rate ∧
      (0 < p → r.noise = p) := by
  rcases hp.eq_or_lt with rfl | hp
  · exact ⟨s, by simp [addNoise], hs, rfl, rfl, rfl, rfl, rfl, rfl, fun h => absurd h (lt_irrefl _)⟩
  · refine ⟨_, addNoise_ok hs p hp w, ⟨⟨?_, ?_, ?_⟩, hs.carriers, hs.noises, hs.delay⟩, rfl, by simp, rfl, rfl,
      rfl, rfl, fun _ => rfl⟩
    · simp [hs.aligned.carriers]
    · simp [hs.aligned.noises]
    · intro r hr
      obtain ⟨i, hi⟩ := List.mem_iff_getElem?.mp hr
      rw [List.getElem?_mapIdx] at hi
      obtain ⟨x, hx, rfl⟩ := Option.map_eq_some_iff.mp hi
      rw [List.length_mapIdx]
      exact hs.aligned.rows x (List.mem_of_getElem? hx)

/-! ### Propagation -/

theorem sliceSel_all (n : Nat) : sliceSel n 0 n = List.range n := by simp [sliceSel]

theorem select_all {s : RfSignal α} (hs : Aligned s) (m : Nat) :
    select s (sliceSel s.rows.length 0 s.rows.length) m = .ok
      { s with rows := s.rows.map (List.take m), samples := min m s.samples } := by
  obtain ⟨r, h1, h2, h3, h4, h5, h6, h7, h8, h9⟩ := C66_select hs (sliceSel s.rows.length 0 s.rows.length)
    (by rw [sliceSel_all]; simp) (by rw [sliceSel_all]; simp) m
  rw [sliceSel_all] at h3 h5
  rw [List.length_range] at h3
  rw [h1]
  have e1 : r.rows = s.rows.map (List.take m) := by
    apply List.ext_getElem?
    intro k
    by_cases hk : k < s.rows.length
    · rw [(h5 k k (by simp [hk])).1, List.getElem?_map]
    · rw [List.getElem?_eq_none (by omega), List.getElem?_eq_none (by simp; omega)]
  have e2 : r.carriers = s.carriers := by
    apply List.ext_getElem?
    intro k
    by_cases hk : k < s.rows.length
    · rw [(h5 k k (by simp [hk])).2.1]
    · rw [List.getElem?_eq_none (by rw [h2.carriers]; omega), List.getElem?_eq_none (by rw [hs.carriers]; omega)]
  have e3 : r.noises = s.noises := by
    apply List.ext_getElem?
    intro k
    by_cases hk : k < s.rows.length
    · rw [(h5 k k (by simp [hk])).2.2]
    · rw [List.getElem?_eq_none (by rw [h2.noises]; omega), List.getElem?_eq_none (by rw [hs.noises]; omega)]
  cases r
  cases s
  simp_all

/-- C66, propagation through any block: a wrong number of streams is refused, and otherwise padding, noise and
anti-aliasing filter change neither the number of samples and streams nor the delay nor the carrier
frequencies and noise powers of the streams produced by the block. -/
theorem C66_propagate [Add α] [Zero α] (numInputs : Nat) (inner : RfSignal α → Except PyErr (RfSignal α))
    (filter : Bool) (oversampling : Nat) (bandwidth power : ℚ) (hp : 0 ≤ power) (w : Nat → Nat → α)
    (filt : List α → List α) (hf : ∀ r, (filt r).length = r.length) (s : RfSignal α) :
    (s.rows.length ≠ numInputs →
      propagate numInputs inner filter oversampling bandwidth power w filt s = .error .value) ∧
    ∀ p, s.rows.length = numInputs → inner s = .ok p → Valid p →
      ∃ r, propagate numInputs inner filter oversampling bandwidth power w filt s = .ok r ∧ Valid r ∧
        r.samples = p.samples ∧ r.rows.length = p.rows.length ∧ r.carriers = p.carriers ∧
        r.noises = p.noises ∧ r.delay = p.delay ∧
        (power = 0 → filter = false ∨ oversampling ≤ 1 → r.rows = p.rows) := by
  unfold propagate
  refine ⟨fun h => if_pos h, fun p hn hi hv => ?_⟩
  rw [if_neg (not_not.mpr hn), hi]
  simp only [bind, Except.bind]
  by_cases hfo : filter = true ∧ 1 < oversampling
  · -- the signal after padding
    have hpad : ∃ q, padShort filter oversampling p = Except.ok q ∧ Valid q ∧ p.samples ≤ q.samples ∧
        q.rows.length = p.rows.length ∧ q.carriers = p.carriers ∧ q.noises = p.noises ∧ q.delay = p.delay := by
      unfold padShort
      by_cases hs : p.samples < 28
      · rw [if_pos ⟨hfo.1, hfo.2, hs⟩]
        refine ⟨_, new_ok _ _ _ _ _ _ (by simp [hv.aligned.carriers]) (by simp [hv.aligned.noises]) hv.carriers
          hv.noises hv.delay, ⟨⟨by simp [hv.aligned.carriers], by simp [hv.aligned.noises], ?_⟩, hv.carriers,
          hv.noises, hv.delay⟩, hs.le, by simp, rfl, rfl, rfl⟩
        intro r hr
        obtain ⟨x, hx, rfl⟩ := List.mem_map.mp hr
        rw [List.length_append, List.length_replicate, hv.aligned.rows x hx]
        show p.samples + (28 - p.samples) = 28
        omega
      · rw [if_neg (fun h => hs h.2.2)]
        exact ⟨p, rfl, hv, le_refl _, rfl, rfl, rfl, rfl⟩
    obtain ⟨q, q1, q2, q3, q4, q5, q6, q7⟩ := hpad
    rw [q1]
    dsimp only
    obtain ⟨n, n1, n2, n3, n4, n5, n6, n7, -, -⟩ := addNoise_valid q2 power hp w
    rw [n1]
    dsimp only
    rw [antialias, if_pos hfo]
    have hlen : n.rows.length = p.rows.length := n4.trans q4
    rw [new_ok (n.rows.map filt) _ _ _ _ _ (by simp [n2.aligned.carriers]) (by simp [n2.aligned.noises])
      n2.carriers n2.noises n2.delay]
    dsimp only
    have hal : Aligned ({
        rows := n.rows.map filt
        samples := q.samples
        rate := bandwidth * oversampling
        carrier := n.carriers.head?.getD 0
        noise := n.noises.head?.getD 0
        delay := n.delay
        carriers := n.carriers
        noises := n.noises } : RfSignal α) := by
      refine ⟨by simp [n2.aligned.carriers], by simp [n2.aligned.noises], ?_⟩
      intro r hr
      obtain ⟨x, hx, rfl⟩ := List.mem_map.mp hr
      rw [hf, n2.aligned.rows x hx, n3]
    rw [select_all hal]
    refine ⟨_, rfl, ⟨⟨by simp [n2.aligned.carriers], by simp [n2.aligned.noises], ?_⟩, n2.carriers, n2.noises,
      n2.delay⟩, by simpa using q3, by simp [hlen], n5.trans q5, n6.trans q6, n7.trans q7, ?_⟩
    · intro r hr
      obtain ⟨x, hx, rfl⟩ := List.mem_map.mp hr
      rw [List.length_take, hal.rows x hx]
    · intro _ h
      rcases h with h | h
      · rw [h] at hfo; simp at hfo
      · omega
  · rw [padShort, if_neg (fun h => hfo ⟨h.1, h.2.1⟩)]
    dsimp only
    obtain ⟨n, n1, n2, n3, n4, n5, n6, n7, -, -⟩ := addNoise_valid hv power hp w
    rw [n1]
    dsimp only
    rw [antialias, if_neg hfo]
    dsimp only
    rw [select_all n2.aligned]
    have htake : n.rows.map (List.take p.samples) = n.rows := by
      conv_rhs => rw [← List.map_id n.rows]
      apply List.map_congr_left
      intro x hx
      rw [List.take_of_length_le (by rw [n2.aligned.rows x hx, n3]), id]
    refine ⟨_, rfl, ⟨⟨by simp [n2.aligned.carriers], by simp [n2.aligned.noises], ?_⟩, n2.carriers, n2.noises,
      n2.delay⟩, by simp [n3], by simp [n4], n5, n6, n7, ?_⟩
    · intro r hr
      simp only [htake] at hr
      rw [n2.aligned.rows r hr, n3]
      simp
    · intro h0 _
      rw [h0] at n1
      simp only [addNoise, if_true] at n1
      cases n1
      exact htake

/-- C66 fails for the noise power: noise added to an already noisy signal overwrites the recorded power
instead of adding to it, the powers of the streams are never updated, a copy forgets the power, and so does
propagation with an anti-aliasing filter. -/
theorem C66_noise_fails [Add α] [Zero α] {s : RfSignal α} (hs : Valid s) (p q : ℚ) (hp : 0 < p) (hq : 0 < q)
    (w w' : Nat → Nat → α) :
    (∃ r, (addNoise s p w >>= fun r => addNoise r q w') = .ok r ∧ r.noise = q ∧ r.noises = s.noises) ∧
    (∃ r, (addNoise s p w >>= copy) = .ok r ∧ r.noise = s.noises.head?.getD 0) ∧
    (∀ (filt : List α → List α), (∀ r, (filt r).length = r.length) → 28 ≤ s.samples →
      ∃ r, propagate s.rows.length .ok true 2 1 p w filt s = .ok r ∧ r.noise = s.noises.head?.getD 0 ∧
        r.noises = s.noises) := by
  obtain ⟨n, n1, n2, n3, n4, n5, n6, n7, n8, n9⟩ := addNoise_valid hs p hp.le w
  refine ⟨?_, ?_, ?_⟩
  · obtain ⟨m, m1, m2, m3, m4, m5, m6, m7, m8, m9⟩ := addNoise_valid n2 q hq.le w'
    exact ⟨m, by rw [n1]; exact m1, m9 hq, m6.trans n6⟩
  · exact ⟨_, by rw [n1]; exact copy_ok n2, by simp [n6]⟩
  · intro filt hf h28
    unfold propagate
    rw [if_neg (by simp)]
    simp only [bind, Except.bind]
    rw [padShort, if_neg (by omega)]
    dsimp only
    rw [n1]
    dsimp only
    rw [antialias, if_pos (by simp)]
    rw [new_ok (n.rows.map filt) _ _ _ _ _ (by simp [n2.aligned.carriers]) (by simp [n2.aligned.noises])
      n2.carriers n2.noises n2.delay]
    dsimp only
    have hal : Aligned ({
        rows := n.rows.map filt
        samples := s.samples
        rate := (1 : ℚ) * (2 : ℕ)
        carrier := n.carriers.head?.getD 0
        noise := n.noises.head?.getD 0
        delay := n.delay
        carriers := n.carriers
        noises := n.noises } : RfSignal α) := by
      refine ⟨by simp [n2.aligned.carriers], by simp [n2.aligned.noises], ?_⟩
      intro r hr
      obtain ⟨x, hx, rfl⟩ := List.mem_map.mp hr
      rw [hf, n2.aligned.rows x hx, n3]
    rw [select_all hal]
    exact ⟨_, rfl, by simp [n6], n6⟩

/-! ### Mixers and multipliers -/

/-- A signal of two streams. -/
def two (x l : List α) (rate c n d f g a b : ℚ) : RfSignal α where
  rows := [x, l]
  samples := x.length
  rate := rate
  carrier := c
  noise := n
  delay := d
  carriers := [f, g]
  noises := [a, b]

/-- C66, mixers: the signal is multiplied with the local oscillator, or its conjugate, and its carrier
frequency is raised, or lowered, by that of the oscillator, in the attributes of the stream and of the signal. -/
theorem C66_mixer_partial [Mul α] [Star α] (x l : List α) (hl : l.length = x.length) (rate c n d f g a b : ℚ) :
    (0 ≤ f + g → ∃ r, mixer .up (two x l rate c n d f g a b) = .ok r ∧ r.rows = [List.zipWith (· * ·) x l] ∧
      r.carriers = [f + g] ∧ r.carrier = f + g ∧ r.noises = [a] ∧ r.samples = x.length ∧ r.delay = d ∧
      r.rate = rate) ∧
    (g ≤ f → ∃ r, mixer .down (two x l rate c n d f g a b) = .ok r ∧
      r.rows = [List.zipWith (fun x y => x * star y) x l] ∧
      r.carriers = [f - g] ∧ r.carrier = f - g ∧ r.noises = [a] ∧ r.samples = x.length ∧ r.delay = d ∧
      r.rate = rate) := by
  have h1 : select (two x l rate c n d f g a b) [0] x.length = .ok
      { two x l rate c n d f g a b with rows := [x], carriers := [f], noises := [a] } := by
    simp [select, two, pick, finalize, bind, Except.bind, pure, Except.pure]
  have h2 : select (two x l rate c n d f g a b) [1] x.length = .ok
      { two x l rate c n d f g a b with rows := [l], carriers := [g], noises := [b] } := by
    simp [select, two, pick, finalize, bind, Except.bind, pure, Except.pure, ← hl]
  constructor
  · intro h
    refine ⟨{ two x l rate c n d f g a b with
        rows := [List.zipWith (· * ·) x l], carriers := [f + g], carrier := f + g, noises := [a] },
      ?_, rfl, rfl, rfl, rfl, rfl, rfl, rfl⟩
    unfold mixer
    rw [show pick (two x l rate c n d f g a b).carriers [1, 0] = .ok [g, f] from rfl]
    simp only [bind, Except.bind]
    rw [show (two x l rate c n d f g a b).samples = x.length from rfl, h1]
    dsimp only
    rw [h2]
    simp [finalize, setCarrier, not_lt.mpr h, two]
  · intro h
    refine ⟨{ two x l rate c n d f g a b with
        rows := [List.zipWith (fun x y => x * star y) x l], carriers := [f - g], carrier := f - g,
        noises := [a] }, ?_, rfl, rfl, rfl, rfl, rfl, rfl, rfl⟩
    unfold mixer
    rw [show pick (two x l rate c n d f g a b).carriers [1, 0] = .ok [g, f] from rfl]
    simp only [bind, Except.bind]
    rw [show (two x l rate c n d f g a b).samples = x.length from rfl, h1]
    dsimp only
    rw [h2]
    simp [finalize, setCarrier, two, h]

/-- C66 fails for mixers down-converting with a local oscillator above the carrier of the signal: the negative
frequency is refused with a `ValueError` by the setter of the common attribute. -/
theorem C66_mixer_fails [Mul α] [Star α] (x l : List α) (hl : l.length = x.length)
    (rate c n d f g a b : ℚ) (h : f < g) : mixer .down (two x l rate c n d f g a b) = .error .value := by
  have h1 : select (two x l rate c n d f g a b) [0] x.length = .ok
      { two x l rate c n d f g a b with rows := [x], carriers := [f], noises := [a] } := by
    simp [select, two, pick, finalize, bind, Except.bind, pure, Except.pure]
  have h2 : select (two x l rate c n d f g a b) [1] x.length = .ok
      { two x l rate c n d f g a b with rows := [l], carriers := [g], noises := [b] } := by
    simp [select, two, pick, finalize, bind, Except.bind, pure, Except.pure, ← hl]
  unfold mixer
  rw [show pick (two x l rate c n d f g a b).carriers [1, 0] = .ok [g, f] from rfl]
  simp only [bind, Except.bind]
  rw [show (two x l rate c n d f g a b).samples = x.length from rfl, h1]
  dsimp only
  rw [h2]
  simp [finalize, setCarrier, two, h]

/-- C66, mixing up and down again with an oscillator of unit amplitude restores signal and carrier. -/
theorem C66_mixer_roundtrip [CommRing α] [StarRing α] (x l : List α) (hl : l.length = x.length)
    (hu : ∀ y ∈ l, y * star y = 1) (rate c n d f g a b : ℚ) (hf : 0 ≤ f) (hg : 0 ≤ g) :
    ∃ r q, mixer .up (two x l rate c n d f g a b) = .ok r ∧
      (∀ y ∈ r.rows, mixer .down (two y l rate c n d (r.carriers.headD 0) g a b) = .ok q) ∧
      r.rows.length = 1 ∧ q.rows = [x] ∧ q.carriers = [f] ∧ q.carrier = f := by
  obtain ⟨r, r1, r2, r3, r4, r5, r6, r7, r8⟩ :=
    (C66_mixer_partial x l hl rate c n d f g a b).1 (add_nonneg hf hg)
  obtain ⟨q, q1, q2, q3, q4, -⟩ :=
    (C66_mixer_partial (List.zipWith (· * ·) x l) l (by simp [hl]) rate c n d (f + g) g a b).2 (by linarith)
  refine ⟨r, q, r1, ?_, by rw [r2]; rfl, ?_, ?_, ?_⟩
  · intro y hy
    rw [r2, List.mem_singleton] at hy
    rw [hy, r3]
    exact q1
  · rw [q2]
    congr 1
    clear q1 q2 q3 q4 r1 r2 r3 r4 r5 r6 r7 r8
    induction x generalizing l with
    | nil => simp
    | cons y x ih =>
      cases l with
      | nil => simp at hl
      | cons z l =>
        simp only [List.zipWith_cons_cons, List.cons.injEq]
        refine ⟨by rw [mul_assoc, hu z (by simp), mul_one], ih l (by simpa using hl) fun w hw => hu w (by simp [hw])⟩
  · rw [q3]; congr 1; ring
  · rw [q4]; ring

/-- The real signal represented by a sample at a carrier frequency, at time `t`. -/
noncomputable def passband (x : ℂ) (f : ℚ) (t : ℝ) : ℝ :=
  (x * Complex.exp (2 * Real.pi * Complex.I * f * t)).re

/-- A signal of one stream. -/
def one (x : List α) (rate c n d f a : ℚ) : RfSignal α where
  rows := [x]
  samples := x.length
  rate := rate
  carrier := c
  noise := n
  delay := d
  carriers := [f]
  noises := [a]

theorem idealMixer_ok (t : MixerType) (lo : ℚ) (x : List α) (rate c n d f a : ℚ) (hf : 0 ≤ f) (ha : 0 ≤ a)
    (hd : 0 ≤ d) :
    idealMixer t lo (one x rate c n d f a) = .ok
      { one x rate c n d f a with
        carriers := [match t with | .up => |f + lo| | .down => |f - lo|]
        carrier := match t with | .up => |f + lo| | .down => |f - lo|
        noise := a } := by
  have h1 : select (one x rate c n d f a) [0] x.length = .ok (one x rate c n d f a) := by
    simp [select, one, pick, finalize, bind, Except.bind, pure, Except.pure]
  have hv : Valid (one x rate c n d f a) := by
    refine ⟨⟨rfl, rfl, ?_⟩, ?_, ?_, hd⟩ <;> simp [one, hf, ha]
  unfold idealMixer
  rw [show pick (one x rate c n d f a).carriers [0] = .ok [f] from rfl]
  simp only [bind, Except.bind]
  rw [show (one x rate c n d f a).samples = x.length from rfl, h1]
  dsimp only
  rw [copy_ok hv]
  cases t <;> simp [setCarrier, one]

/-- C66, ideal mixers: up-conversion, and down-conversion by at most the carrier frequency, move every sample
to the sum, or difference, of the frequencies; converting up and down again restores the signal. -/
theorem C66_ideal_mixer_partial (lo : ℚ) (hlo : 0 ≤ lo) (x : List ℂ) (rate c n d f a : ℚ) (hf : 0 ≤ f)
    (ha : 0 ≤ a) (hd : 0 ≤ d) (t : MixerType) (hle : t = .down → lo ≤ f) :
    ∃ r, idealMixer t lo (one x rate c n d f a) = .ok r ∧ r.carriers = [r.carrier] ∧ r.noises = [a] ∧
      ∃ y, r.rows = [y] ∧ y.length = x.length ∧
        (∀ (i : Nat) (v u : ℂ), x[i]? = some v → y[i]? = some u → ∀ τ : ℝ,
          passband u r.carrier τ = passband v (match t with | .up => f + lo | .down => f - lo) τ) ∧
      (t = .up → ∃ q, idealMixer .down lo r = .ok q ∧ q.rows = [x] ∧ q.carriers = [f] ∧ q.carrier = f) := by
  refine ⟨_, idealMixer_ok t lo x rate c n d f a hf ha hd, rfl, rfl, x, rfl, rfl, ?_, ?_⟩
  · intro i v u hv hu τ
    rw [hv] at hu
    cases hu
    cases t with
    | up => dsimp only; rw [abs_of_nonneg (add_nonneg hf hlo)]
    | down => dsimp only; rw [abs_of_nonneg (sub_nonneg.mpr (hle rfl))]
  · rintro rfl
    refine ⟨_, idealMixer_ok .down lo x rate (|f + lo|) a d (|f + lo|) a (abs_nonneg _) ha hd, rfl, ?_, ?_⟩
    · dsimp only
      rw [abs_of_nonneg (add_nonneg hf hlo), show f + lo - lo = f by ring, abs_of_nonneg hf]
    · dsimp only
      rw [abs_of_nonneg (add_nonneg hf hlo), show f + lo - lo = f by ring, abs_of_nonneg hf]

/-- C66 fails for ideal mixers down-converting with an oscillator above the carrier: the negative difference
frequency is replaced by its absolute value without conjugating the samples, so that the output is not the
difference component of the input. -/
theorem C66_ideal_mixer_fails :
    ∃ r, idealMixer .down 2 (one [Complex.I] 1 1 0 0 1 0) = .ok r ∧ r.carriers = [1] ∧
      r.rows = [[Complex.I]] ∧ passband Complex.I 1 (1 / 4) ≠ passband Complex.I (1 - 2) (1 / 4) := by
  refine ⟨_, idealMixer_ok .down 2 [Complex.I] 1 1 0 0 1 0 (by norm_num) (by norm_num) (by norm_num), ?_, rfl, ?_⟩
  · norm_num
  · have e1 : Complex.exp (2 * Real.pi * Complex.I * ((1 : ℚ) : ℂ) * ((1 / 4 : ℝ) : ℂ)) = Complex.I := by
      refine Eq.trans ?_ Complex.exp_pi_div_two_mul_I
      congr 1
      push_cast
      ring
    have e2 : Complex.exp (2 * Real.pi * Complex.I * ((1 - 2 : ℚ) : ℂ) * ((1 / 4 : ℝ) : ℂ)) = -Complex.I := by
      refine Eq.trans ?_ Complex.exp_neg_pi_div_two_mul_I
      congr 1
      push_cast
      ring
    unfold passband
    rw [e1, e2]
    norm_num

/-- C66, frequency multipliers: the carrier frequency of every stream is multiplied by four, samples and noise
powers are unchanged.  Missing for the full claim: the common attribute, see `C66_x4_fails`. -/
theorem C66_x4_partial {s : RfSignal α} (hs : Valid s) :
    ∃ r : RfSignal α, x4 s = .ok r ∧ r.rows = s.rows ∧ r.noises = s.noises ∧ r.delay = s.delay ∧
      ∀ i : Nat, r.carriers[i]? = (s.carriers[i]?).map (4 * ·) := by
  unfold x4
  rw [copy_ok hs]
  simp only [bind, Except.bind]
  rw [if_neg (by simp [hs.aligned.carriers])]
  refine ⟨_, rfl, rfl, rfl, rfl, fun i => ?_⟩
  rw [List.getElem?_map]
  congr 1
  funext x
  ring

/-- C66 fails for frequency multipliers: the attribute `carrier_frequency` of the signal remains the one
before the multiplication, although all streams agree on the multiplied one. -/
theorem C66_x4_fails (x : List α) (rate f : ℚ) (hf : 0 < f) :
    ∃ r, x4 (one x rate f 0 0 f 0) = .ok r ∧ r.carriers = [f * 4] ∧ r.carrier = f ∧ r.carrier ≠ f * 4 := by
  have hv : Valid (one x rate f 0 0 f 0) := by
    refine ⟨⟨rfl, rfl, ?_⟩, ?_, ?_, le_refl _⟩ <;> simp [one, hf.le]
  unfold x4
  rw [copy_ok hv]
  exact ⟨_, rfl, rfl, rfl, by show f ≠ f * 4; intro h; linarith⟩

/-- C66 fails for signals created from arrays, such as the output of every frequency source: the attribute
`carrier_frequency` is zero whatever carrier frequency was given for the streams, and an array of
frequencies of another size than the number of streams is ignored instead of being refused. -/
theorem C66_from_array_fails (rows : List (List α)) (m : Nat) (rate f : ℚ) (xs : List ℚ)
    (hx : xs.length ≠ rows.length) (amplitude : α) :
    (∃ r, fromNDArray rows m rate (.scalar f) .none 0 = .ok r ∧ r.carriers = List.replicate rows.length f ∧
      r.carrier = 0) ∧
    (∃ r, fromNDArray rows m rate (.array xs) .none 0 = .ok r ∧ r.carriers = List.replicate rows.length 0) ∧
    (∃ r, source amplitude rate f m = .ok r ∧ r.carriers = [f] ∧ r.carrier = 0) := by
  refine ⟨⟨_, rfl, rfl, rfl⟩, ⟨_, rfl, ?_⟩, ⟨_, rfl, rfl, rfl⟩⟩
  simp [Meta.perStream, hx]

/-! ### Splitters, adders and phase shifters -/

/-- C66, a splitter with a single output passes on its stream with its meta data.  Missing for the full
claim: all other splitters, see `C66_split_fails`. -/
theorem C66_split_partial (x : List α) (rate c n d f a : ℚ) :
    split 1 (one x rate c n d f a) = .ok (one x rate c n d f a) := by
  simp [split, one, select, pick, finalize, bind, Except.bind, pure, Except.pure]

/-- C66 fails for splitters with several outputs: every propagation raises a `ValueError`. -/
theorem C66_split_fails (k : Nat) (hk : 2 ≤ k) {s : RfSignal α} (hs : Aligned s) (h1 : s.rows.length = 1) :
    split k s = .error .value := by
  obtain ⟨r, r1, r2, r3, -⟩ := C66_select hs [0] (by simp [h1]) (by simp [h1]) s.samples
  unfold split
  rw [r1]
  simp only [bind, Except.bind]
  apply finalize_error r2
  rw [List.length_flatten, List.map_replicate, List.sum_replicate, r3]
  simp
  omega

theorem foldl_zipWith_length [Add α] (m : Nat) (rows : List (List α)) :
    ∀ acc : List α, acc.length = m → (∀ r ∈ rows, r.length = m) →
      (rows.foldl (List.zipWith (· + ·)) acc).length = m := by
  induction rows with
  | nil => intro acc h _; exact h
  | cons r rows ih =>
    intro acc h hr
    rw [List.foldl_cons]
    exact ih _ (by rw [List.length_zipWith, h, hr r (by simp), Nat.min_self]) fun r hr' => hr r (by simp [hr'])

theorem foldl_zipWith_get [AddCommMonoid α] (rows : List (List α)) : ∀ (acc : List α) (m i : Nat) (a : α),
    acc.length = m → (∀ r ∈ rows, r.length = m) → acc[i]? = some a →
    (rows.foldl (List.zipWith (· + ·)) acc)[i]? =
      some (a + (rows.map (fun r => (r[i]?).getD 0)).sum) := by
  induction rows with
  | nil => intro acc m i a _ _ ha; simpa using ha
  | cons r rows ih =>
    intro acc m i a h hr ha
    have hi : i < acc.length := (List.getElem?_eq_some_iff.mp ha).1
    have hir : i < r.length := by rw [hr r (by simp)]; omega
    rw [List.foldl_cons, ih _ m i (a + r[i]) (by rw [List.length_zipWith, h, hr r (by simp), Nat.min_self])
      (fun r hr' => hr r (by simp [hr'])) (by
        rw [List.getElem?_zipWith, ha, List.getElem?_eq_getElem hir])]
    simp [List.getElem?_eq_getElem hir, add_assoc]

/-- C66, adders: every output sample is the sum of the samples of all streams; the output carries the carrier
frequency and noise power of the first stream, which is the common carrier frequency if there is one.
Missing for the full claim: the noise powers of the other streams are lost. -/
theorem C66_sum_partial [AddCommMonoid α] {s : RfSignal α} (hs : Aligned s) (h0 : s.rows ≠ []) :
    ∃ r y, sum s = .ok r ∧ Aligned r ∧ r.rows = [y] ∧ r.samples = s.samples ∧
      (∀ i < s.samples, y[i]? = some ((s.rows.map (fun row => (row[i]?).getD 0)).sum)) ∧
      r.carriers[0]? = s.carriers[0]? ∧ r.noises[0]? = s.noises[0]? ∧
      (∀ f, (∀ x ∈ s.carriers, x = f) → r.carriers = [f]) := by
  have hpos : 0 < s.rows.length := List.length_pos_iff.mpr h0
  have hlen := foldl_zipWith_length s.samples s.rows (List.replicate s.samples 0) (by simp) hs.rows
  unfold sum
  rw [finalize_ok hs _ _ (by simp only [List.length_singleton]; omega)]
  refine ⟨_, _, rfl, ⟨?_, ?_, ?_⟩, rfl, rfl, ?_, ?_, ?_, ?_⟩
  · simp [hs.carriers]; omega
  · simp [hs.noises]; omega
  · intro r hr
    simp only [List.mem_singleton] at hr
    rw [hr, hlen]
  · intro i hi
    rw [foldl_zipWith_get s.rows _ s.samples i 0 (by simp) hs.rows (by simp [hi])]
    simp
  · simp
  · simp
  · intro f hf
    dsimp only
    have hc : 0 < s.carriers.length := by rw [hs.carriers]; exact hpos
    cases hcs : s.carriers with
    | nil => rw [hcs] at hc; simp at hc
    | cons x xs => simp [hf x (by rw [hcs]; simp)]

/-- C66, phase shifters: every sample is rotated by the configured phase, keeping its amplitude, and the meta
data is unchanged. -/
theorem C66_shift {s : RfSignal ℂ} (hs : Aligned s) (phase : ℝ) (bits : Nat) :
    ∃ r, shift phase bits s = .ok r ∧ Aligned r ∧ r.carriers = s.carriers ∧ r.noises = s.noises ∧
      ∀ (k i : Nat) (x : ℂ), (s.rows[k]?).bind (·[i]?) = some x →
        ∃ y, (r.rows[k]?).bind (·[i]?) = some y ∧ ‖y‖ = ‖x‖ ∧ y = x * Complex.exp (Complex.I * phase) := by
  unfold shift
  rw [finalize_ok hs _ _ (by simp)]
  refine ⟨_, rfl, ⟨by simp [hs.carriers], by simp [hs.noises], ?_⟩, ?_, ?_, ?_⟩
  · intro r hr
    obtain ⟨x, hx, rfl⟩ := List.mem_map.mp hr
    simp [hs.rows x hx]
  · simp only [List.length_map, ← hs.carriers, List.take_length]
  · simp only [List.length_map, ← hs.noises, List.take_length]
  · intro k i x hx
    refine ⟨x * Complex.exp (Complex.I * phase), ?_, ?_, rfl⟩
    · simp only [List.getElem?_map]
      cases hk : s.rows[k]? with
      | none => rw [hk] at hx; simp at hx
      | some row =>
        rw [hk] at hx
        simp only [Option.bind_some] at hx
        simp [hx]
    · rw [norm_mul, mul_comm Complex.I, Complex.norm_exp_ofReal_mul_I, mul_one]

/-- C66 fails for phase shifters with quantisation: a shifter with one bit, that is the two phases 0 and π,
still rotates by π/2. -/
theorem C66_shift_fails (c n d f a : ℚ) :
    ∃ r, shift (Real.pi / 2) 1 (one [1] 1 c n d f a) = .ok r ∧ r.rows = [[Complex.I]] ∧
      ∀ k : ℤ, Complex.I ≠ Complex.exp (Complex.I * ((k * (2 * Real.pi / 2 ^ 1) : ℝ) : ℂ)) := by
  refine ⟨_, by unfold shift; rw [finalize_ok (by refine ⟨rfl, rfl, ?_⟩; simp [one]) _ _ (by simp)], ?_, ?_⟩
  · simp only [one, List.map_cons, List.map_nil, one_mul]
    rw [mul_comm]
    push_cast
    rw [Complex.exp_pi_div_two_mul_I]
  · intro k h
    have : (Complex.exp (Complex.I * ((k * (2 * Real.pi / 2 ^ 1) : ℝ) : ℂ))).im = 0 := by
      rw [mul_comm, Complex.exp_ofReal_mul_I_im]
      rw [show (k * (2 * Real.pi / 2 ^ 1) : ℝ) = k * Real.pi by ring]
      exact Real.sin_int_mul_pi k
    rw [← h] at this
    simp at this

/-! ### All programs -/

/-- Signals obtainable by any sequence of the modelled operations. -/
inductive Made [CommRing α] [StarRing α] : RfSignal α → Prop where
  | new {rows m rate c n d s} : (∀ r ∈ rows, r.length = m) → new rows m rate c n d = .ok s → Made s
  | array {rows m rate c n d s} : (∀ r ∈ rows, r.length = m) → fromNDArray rows m rate c n d = .ok s → Made s
  | dense {rows m rate c n d} : (∀ r ∈ rows, r.length = m) → Made (fromDense rows m rate c n d)
  | select {s sel m r} : Made s → select s sel m = .ok r → Made r
  | assign {s v sel m r} : Made s → Made v → assign s sel m v = .ok r → Made r
  | copy {s r} : Made s → copy s = .ok r → Made r
  | stored {s r} : Made s → deserialize (serialize s) = .ok r → Made r
  | resample {s rate rows m r} : Made s → rows.length = s.rows.length → (∀ x ∈ rows, x.length = m) →
      resample s rate rows m = .ok r → Made r
  | noise {s p w r} : Made s → addNoise s p w = .ok r → Made r
  | mixer {t s r} : Made s → mixer t s = .ok r → Made r
  | idealMixer {t lo s r} : Made s → idealMixer t lo s = .ok r → Made r
  | x4 {s r} : Made s → x4 s = .ok r → Made r
  | split {k s r} : Made s → split k s = .ok r → Made r
  | sum {s r} : Made s → sum s = .ok r → Made r

theorem bind_ok {β γ : Type} {e : Except PyErr β} {f : β → Except PyErr γ} {r : γ}
    (h : (e >>= f) = .ok r) : ∃ x, e = .ok x ∧ f x = .ok r := by
  cases e with
  | error e => exact absurd h (by simp [bind, Except.bind])
  | ok x => exact ⟨x, rfl, h⟩

theorem new_aligned {rows : List (List α)} {m : Nat} {rate : ℚ} {c n : Option (List ℚ)} {d : ℚ}
    {s : RfSignal α} (hr : ∀ r ∈ rows, r.length = m) (h : new rows m rate c n d = .ok s) : Aligned s := by
  unfold new at h
  dsimp only at h
  split at h; · simp at h
  split at h; · simp at h
  split at h; · simp at h
  split at h; · simp at h
  split at h; · simp at h
  rename_i h1 h2
  cases h
  exact ⟨not_not.mp h1, not_not.mp h2, hr⟩

theorem finalize_aligned {s : RfSignal α} {rows : List (List α)} {m : Nat} {r : RfSignal α}
    (hr : ∀ x ∈ rows, x.length = m) (h : finalize s rows m = .ok r) : Aligned r := by
  unfold finalize at h
  split at h; · simp at h
  split at h; · simp at h
  rename_i h1 h2
  cases h
  exact ⟨not_not.mp h1, not_not.mp h2, hr⟩

theorem finalize_rows {s : RfSignal α} {rows : List (List α)} {m : Nat} {r : RfSignal α}
    (h : finalize s rows m = .ok r) : r.rows = rows ∧ r.samples = m := by
  unfold finalize at h
  split at h; · simp at h
  split at h; · simp at h
  cases h
  exact ⟨rfl, rfl⟩

theorem select_aligned {s : RfSignal α} (hs : Aligned s) {sel : List Nat} {m : Nat} {r : RfSignal α}
    (h : select s sel m = .ok r) : Aligned r ∧ r.samples = min m s.samples := by
  unfold select at h
  obtain ⟨rows, h1, h⟩ := bind_ok h
  obtain ⟨f, h2, h⟩ := bind_ok h
  obtain ⟨cs, h3, h⟩ := bind_ok h
  obtain ⟨ns, h4, h⟩ := bind_ok h
  have hrow : ∀ x ∈ rows.map (List.take m), x.length = min m s.samples := by
    intro x hx
    obtain ⟨y, hy, rfl⟩ := List.mem_map.mp hx
    rw [List.length_take, hs.rows y ((pick_length _ _ _ h1).2 y hy)]
  have hf := finalize_aligned hrow h2
  obtain ⟨f1, f2⟩ := finalize_rows h2
  by_cases hc : cs.length = f.rows.length
  · by_cases hn : ns.length = f.rows.length
    · simp only [hc, hn, ne_eq, not_true_eq_false, if_false, pure, Except.pure] at h
      cases h
      exact ⟨⟨hc, hn, hf.rows⟩, f2⟩
    · simp [hc, hn, throw, throwThe, MonadExceptOf.throw, bind, Except.bind] at h
  · simp [hc, throw, throwThe, MonadExceptOf.throw, bind, Except.bind] at h

theorem setCarrier_aligned {s r : RfSignal α} {f : ℚ} (hs : Aligned s) (h : setCarrier s f = .ok r) :
    Aligned r := by
  unfold setCarrier at h
  split at h; · simp at h
  cases h
  exact ⟨hs.carriers, hs.noises, hs.rows⟩

/-- C66, every program: whatever sequence of operations produced it, a signal has exactly one carrier
frequency and one noise power per stream, and all streams have the same number of samples. -/
theorem C66_aligned [CommRing α] [StarRing α] {s : RfSignal α} (h : Made s) : Aligned s := by
  induction h with
  | new hr h => exact new_aligned hr h
  | @array rows m rate c n d s hr h =>
    unfold fromNDArray at h
    split at h; · simp at h
    cases h
    have : ∀ x : Meta, (x.perStream rows.length).length = rows.length := by
      intro x
      cases x with
      | none => simp [Meta.perStream]
      | scalar x => simp [Meta.perStream]
      | array xs =>
        show (if xs.length = rows.length then xs else List.replicate rows.length 0).length = rows.length
        split
        · assumption
        · simp
    exact ⟨this c, this n, hr⟩
  | dense hr => exact ⟨by simp [fromDense], by simp [fromDense], hr⟩
  | select _ h ih => exact (select_aligned ih h).1
  | @assign s v sel m r _ _ h ih ihv =>
    unfold assign at h
    by_cases hm : v.samples = min m s.samples
    · rw [if_neg (not_not.mpr hm)] at h
      obtain ⟨rows, h1, h⟩ := bind_ok h
      obtain ⟨cs, h2, h⟩ := bind_ok h
      obtain ⟨ns, h3, h⟩ := bind_ok h
      obtain ⟨c, h4, h⟩ := bind_ok h
      obtain ⟨n, h5, h⟩ := bind_ok h
      cases h
      obtain ⟨a1, a2⟩ := putWith_length _ _ _ _ _ h1
      refine ⟨?_, ?_, ?_⟩
      · rw [(putWith_length _ _ _ _ _ h2).1, ih.carriers, a1]
      · rw [(putWith_length _ _ _ _ _ h3).1, ih.noises, a1]
      · refine a2 (fun r => r.length = s.samples) ih.rows ?_
        intro x hx old hold
        rw [List.length_append, List.length_drop, ihv.rows x hx, hold, hm]
        omega
    · rw [if_pos hm] at h
      exact absurd h (by simp [throw, throwThe, MonadExceptOf.throw, bind, Except.bind])
  | copy _ h ih => exact new_aligned ih.rows h
  | stored _ h ih => exact new_aligned ih.rows h
  | resample _ _ hx h ih =>
    unfold resample at h
    split at h
    · cases h; exact ih
    · exact new_aligned hx h
  | @noise s p w r _ h ih =>
    unfold addNoise at h
    split at h
    · cases h; exact ih
    · obtain ⟨c, h1, h⟩ := bind_ok h
      have hc := new_aligned ih.rows h1
      by_cases hp : p < 0
      · simp [hp, throw, throwThe, MonadExceptOf.throw, bind, Except.bind] at h
      · simp only [hp, if_false, pure, Except.pure] at h
        cases h
        refine ⟨by simp [hc.carriers], by simp [hc.noises], ?_⟩
        intro r hr
        obtain ⟨i, hi⟩ := List.mem_iff_getElem?.mp hr
        rw [List.getElem?_mapIdx] at hi
        obtain ⟨x, hx, rfl⟩ := Option.map_eq_some_iff.mp hi
        rw [List.length_mapIdx]
        exact hc.rows x (List.mem_of_getElem? hx)
  | @mixer t s r _ h ih =>
    unfold mixer at h
    obtain ⟨fs, h1, h⟩ := bind_ok h
    obtain ⟨a, h2, h⟩ := bind_ok h
    obtain ⟨b, h3, h⟩ := bind_ok h
    obtain ⟨o, h4, h⟩ := bind_ok h
    obtain ⟨ha, ha'⟩ := select_aligned ih h2
    obtain ⟨hb, hb'⟩ := select_aligned ih h3
    rw [Nat.min_self] at ha' hb'
    have key : ∀ g : α → α → α, ∀ x ∈ List.zipWith (List.zipWith g) a.rows b.rows, x.length = s.samples := by
      intro g x hx
      obtain ⟨i, hi⟩ := List.mem_iff_getElem?.mp hx
      rw [List.getElem?_zipWith] at hi
      cases hai : a.rows[i]? with
      | none => simp [hai] at hi
      | some u =>
        cases hbi : b.rows[i]? with
        | none => simp [hai, hbi] at hi
        | some v =>
          simp only [hai, hbi, Option.some.injEq] at hi
          rw [← hi, List.length_zipWith, ha.rows u (List.mem_of_getElem? hai),
            hb.rows v (List.mem_of_getElem? hbi), ha', hb', Nat.min_self]
    have ho : Aligned o := by
      refine finalize_aligned ?_ h4
      cases t
      · exact key _
      · exact key _
    exact setCarrier_aligned (by exact ⟨by simp [ho.carriers], ho.noises, ho.rows⟩) h
  | @idealMixer t lo s r _ h ih =>
    unfold idealMixer at h
    obtain ⟨fs, h1, h⟩ := bind_ok h
    obtain ⟨a, h2, h⟩ := bind_ok h
    obtain ⟨o, h3, h⟩ := bind_ok h
    have ho := new_aligned (select_aligned ih h2).1.rows h3
    exact setCarrier_aligned (by exact ⟨by simp [ho.carriers], ho.noises, ho.rows⟩) h
  | @x4 s r _ h ih =>
    unfold x4 at h
    obtain ⟨o, h1, h⟩ := bind_ok h
    have ho := new_aligned ih.rows h1
    by_cases hc : (s.carriers.map (· * 4)).length = o.rows.length
    · simp only [hc, ne_eq, not_true_eq_false, if_false, pure, Except.pure] at h
      cases h
      exact ⟨hc, ho.noises, ho.rows⟩
    · simp [hc, throw, throwThe, MonadExceptOf.throw, bind, Except.bind] at h
      simp at hc
      rw [if_neg hc] at h
      simp at h
  | @split k s r _ h ih =>
    unfold split at h
    obtain ⟨a, h1, h⟩ := bind_ok h
    obtain ⟨ha, ha'⟩ := select_aligned ih h1
    refine finalize_aligned ?_ h
    intro x hx
    obtain ⟨l, hl, hx⟩ := List.mem_flatten.mp hx
    rw [List.eq_of_mem_replicate hl] at hx
    rw [ha.rows x hx, ha', Nat.min_self]
  | @sum s r _ h ih =>
    unfold sum at h
    refine finalize_aligned ?_ h
    intro x hx
    rw [List.mem_singleton] at hx
    rw [hx]
    exact foldl_zipWith_length s.samples s.rows _ (by simp) ih.rows

/-! ### Concrete signals -/

/-- Two streams of one sample at 5 and 7 Hz. -/
def demoSignal : RfSignal ℤ := two [10] [20] 1 5 0 0 5 7 0 1

theorem demo_valid : Valid demoSignal := by
  refine ⟨⟨rfl, rfl, ?_⟩, ?_, ?_, le_refl _⟩ <;> simp [demoSignal, two]

/-- Exchanged streams come with exchanged carrier frequencies. -/
example : ∃ r, select demoSignal [1, 0] 1 = .ok r ∧ r.carriers[0]? = some 7 ∧ r.rows[0]? = some [20] := by
  obtain ⟨r, h1, -, -, -, h, -⟩ := C66_select demo_valid.aligned [1, 0] (by decide) (by decide) 1
  exact ⟨r, h1, (h 0 1 rfl).2.1, (h 0 1 rfl).1⟩

/-- Three copies of the first of two streams cannot be selected. -/
example : select demoSignal [0, 0, 0] 1 = .error .value :=
  C66_select_fails demo_valid.aligned [0, 0, 0] (by decide) (by decide) 1

/-- Assigning the second stream to the first one makes all streams agree, and the common carrier frequency
follows. -/
example : ∃ r, assign demoSignal [0] 1 (one [30] 1 0 0 0 7 1) = .ok r ∧ r.rows[0]? = some [30] ∧
    r.rows[1]? = some [20] ∧ r.carriers[0]? = some 7 ∧ r.carriers.length = 2 := by
  obtain ⟨r, h1, h2, h3, -, h4, h5, -⟩ := C66_assign (s := demoSignal) (v := one [30] 1 0 0 0 7 1)
    demo_valid.aligned ⟨rfl, rfl, by simp [one]⟩ [0] (by decide) (by decide) (.inl rfl) 1 rfl (by simp [demoSignal, two])
    ⟨demo_valid.carriers, by simp [one]⟩ ⟨demo_valid.noises, by simp [one]⟩
  obtain ⟨old, row, o1, o2, o3, o4, -⟩ := h5 0 0 rfl
  refine ⟨r, h1, ?_, (h4 1 (by decide)).1, o4, by rw [h2.carriers, h3]; rfl⟩
  cases o1
  cases o2
  exact o3

example : ∃ r, copy demoSignal = .ok r ∧ r.carriers = [5, 7] := by
  obtain ⟨⟨r, h1, -, -, -, -, h, -⟩, -⟩ := C66_copy_partial demo_valid
  exact ⟨r, h1, h⟩

/-- Noise of power 2 and then of power 3 is recorded as a noise power of 3. -/
example : ∃ r, (addNoise demoSignal 2 (fun _ _ => 1) >>= fun r => addNoise r 3 (fun _ _ => 1)) = .ok r ∧
    r.noise = 3 := by
  obtain ⟨⟨r, h1, h2, -⟩, -⟩ := C66_noise_fails demo_valid 2 3 (by norm_num) (by norm_num) (fun _ _ => (1 : ℤ))
    (fun _ _ => 1)
  exact ⟨r, h1, h2⟩

/-- Propagation of a short signal through an oversampled block with noise. -/
example : ∃ r, propagate 2 .ok true 4 1 2 (fun _ _ => (1 : ℤ)) id demoSignal = .ok r ∧ r.samples = 1 ∧
    r.carriers = [5, 7] := by
  obtain ⟨r, h1, -, h2, -, h3, -⟩ := (C66_propagate 2 .ok true 4 1 2 (by norm_num) (fun _ _ => (1 : ℤ)) id
    (fun _ => rfl) demoSignal).2 demoSignal rfl rfl demo_valid
  exact ⟨r, h1, h2, h3⟩

example : propagate 3 .ok true 4 1 2 (fun _ _ => (1 : ℤ)) id demoSignal = .error .value :=
  (C66_propagate 3 .ok true 4 1 2 (by norm_num) (fun _ _ => (1 : ℤ)) id (fun _ => rfl) demoSignal).1 (by decide)

/-- A unit oscillator at 7 Hz above a signal at 5 Hz. -/
example : ∃ r, mixer .up (two [(10 : ℂ)] [Complex.I] 1 5 0 0 5 7 0 0) = .ok r ∧ r.carriers = [5 + 7] := by
  obtain ⟨r, h1, -, h2, -⟩ := (C66_mixer_partial [(10 : ℂ)] [Complex.I] rfl 1 5 0 0 5 7 0 0).1 (by norm_num)
  exact ⟨r, h1, h2⟩

example : mixer .down (two [(10 : ℂ)] [Complex.I] 1 5 0 0 5 7 0 0) = .error .value :=
  C66_mixer_fails [(10 : ℂ)] [Complex.I] rfl 1 5 0 0 5 7 0 0 (by norm_num)

example : ∃ r q, mixer .up (two [(10 : ℂ)] [Complex.I] 1 5 0 0 5 7 0 0) = .ok r ∧ q.rows = [[(10 : ℂ)]] ∧
    ∀ y ∈ r.rows, mixer .down (two y [Complex.I] 1 5 0 0 (r.carriers.headD 0) 7 0 0) = .ok q := by
  obtain ⟨r, q, h1, h2, -, h3, -⟩ := C66_mixer_roundtrip [(10 : ℂ)] [Complex.I] rfl (by simp) 1 5 0 0 5 7 0 0
    (by norm_num) (by norm_num)
  exact ⟨r, q, h1, h3, h2⟩

example : ∃ r, idealMixer .down 2 (one [Complex.I] 1 5 0 0 5 0) = .ok r ∧ r.carriers = [r.carrier] := by
  obtain ⟨r, h1, h2, -⟩ := C66_ideal_mixer_partial 2 (by norm_num) [Complex.I] 1 5 0 0 5 0 (by norm_num)
    (by norm_num) (by norm_num) .down (fun _ => by norm_num)
  exact ⟨r, h1, h2⟩

example : ∃ r, x4 demoSignal = .ok r ∧ r.carriers[1]? = some (4 * 7) := by
  obtain ⟨r, h1, -, -, -, h⟩ := C66_x4_partial demo_valid
  refine ⟨r, h1, ?_⟩
  rw [h 1]
  rfl

example : split 2 (one [1, 2] 1 0 0 0 5 0 : RfSignal ℤ) = .error .value :=
  C66_split_fails 2 (le_refl _) ⟨rfl, rfl, by simp [one]⟩ rfl

example : ∃ r y, sum demoSignal = .ok r ∧ r.rows = [y] ∧ y[0]? = some 30 := by
  obtain ⟨r, y, h1, -, h2, -, h3, -⟩ := C66_sum_partial demo_valid.aligned (by simp [demoSignal, two])
  exact ⟨r, y, h1, h2, by simpa [demoSignal, two] using h3 0 (by decide)⟩

example : ∃ r, shift 1 3 (one [1, Complex.I] 1 5 0 0 5 0) = .ok r ∧ r.carriers = [5] := by
  obtain ⟨r, h1, -, h2, -⟩ := C66_shift (s := one [1, Complex.I] 1 5 0 0 5 0) ⟨rfl, rfl, by simp [one]⟩ 1 3
  exact ⟨r, h1, h2⟩

/-- A signal mixed and multiplied. -/
example : ∃ s : RfSignal ℂ, Made s ∧ s.rows.length = 1 ∧ s.carriers.length = 1 := by
  obtain ⟨r, h1, h2, -⟩ := (C66_mixer_partial [(10 : ℂ)] [Complex.I] rfl 1 5 0 0 5 7 0 0).1 (by norm_num)
  have hm : Made r := .mixer (.new (rows := [[(10 : ℂ)], [Complex.I]]) (m := 1) (rate := 1)
    (c := some [5, 7]) (n := some [0, 0]) (d := 0) (by simp)
    (by rw [new_ok _ _ _ _ _ _ rfl rfl (by simp) (by simp) (le_refl _)]; rfl)) h1
  exact ⟨r, hm, by rw [h2]; rfl, by rw [(C66_aligned hm).carriers, h2]; rfl⟩

end Verif.Rf.Sig
