import Verif.Beam.Adaptive

/-!
# C142: beamforming whole signals

`encode_streams` and `decode_streams` of `hermespy/beamforming/beamformer.py`, which apply a beamformer to every
block of a signal, and the operators of `hermespy/beamforming/operators.py`.  Samples are complex numbers; the
blocks of a signal are assumed to have the same number of streams.
-/

namespace Verif.BeamStreams

open Verif (PyErr)
open Matrix Verif.Core Verif.Core.Ant Verif.Beam

/-! ### Signals -/

/-- `SignalBlock`, `core/signal_model.py` 395-483: one row of samples per stream. -/
structure Block where
  offset : Nat
  len : Nat
  rows : List (Fin len → ℂ)

/-- Attributes of signals, `core/signal_model.py` 931-1009. -/
structure Params where
  rate : ℝ
  carrier : ℝ
  noise : ℝ
  delay : ℝ

/-- What the setters accept, `core/signal_model.py` 948-951, 970-973, 986-990 and 1005-1009. -/
def Params.Valid (p : Params) : Prop := 0 < p.rate ∧ 0 ≤ p.carrier ∧ 0 ≤ p.noise ∧ 0 ≤ p.delay

/-- `DenseSignal`, `core/signal_model.py` 1187-1226, and `SparseSignal`, lines 1598-1663. -/
inductive Sig where
  | dense (p : Params) (len : Nat) (rows : List (Fin len → ℂ))
  | sparse (p : Params) (blocks : List Block)

def Sig.params : Sig → Params
  | .dense p _ _ => p
  | .sparse p _ => p

/-- `blocks`, `core/signal_model.py` 1300-1305 and 1675-1678. -/
def Sig.blocks : Sig → List Block
  | .dense _ n rows => [⟨0, n, rows⟩]
  | .sparse _ bs => bs

/-- `block_offsets`, `core/signal_model.py` 1307-1312 and 1680-1683. -/
def Sig.offsets : Sig → List Nat
  | .dense _ _ _ => [0]
  | .sparse _ bs => bs.map Block.offset

/-- `num_streams`, `core/signal_model.py` 444-450 and 1697-1702. -/
def Sig.numStreams : Sig → Nat
  | .dense _ _ rows => rows.length
  | .sparse _ [] => 0
  | .sparse _ (b :: _) => b.rows.length

/-- `num_samples`, `core/signal_model.py` 453-459 and 1690-1695, with `end`, lines 478-483. -/
def Sig.numSamples : Sig → Nat
  | .dense _ n _ => n
  | .sparse _ bs => match bs.getLast? with
    | none => 0
    | some b => b.offset + b.len

/-- The sample `i` of the stream `j` of rows. -/
def entry {n : Nat} (rows : List (Fin n → ℂ)) (j i : Nat) : ℂ :=
  match rows[j]? with
  | none => 0
  | some r => if h : i < n then r ⟨i, h⟩ else 0

/-- The columns of an array of `N` columns a block is assigned to, `core/signal_model.py` 1737-1738: slices end with
the array, and other numbers of columns than one are not broadcast (`ValueError`). -/
def fits (N : Nat) (b : Block) : Prop := b.len = 1 ∨ min (b.offset + b.len) N - min b.offset N = b.len

instance (N : Nat) (b : Block) : Decidable (fits N b) := by unfold fits; infer_instance

/-- Does a block hold the sample `i`? -/
def Block.covers (i : Nat) (b : Block) : Bool := decide (b.offset ≤ i) && decide (i < b.offset + b.len)

/-- `to_dense`, `core/signal_model.py` 1537-1538 and 1733-1740: zeros, then one block after the other, so that of
several blocks at a sample the last remains.  The number of samples, and the samples by stream. -/
def Sig.toDense (s : Sig) : Except PyErr (Nat × (Nat → Nat → ℂ)) :=
  match s with
  | .dense _ n rows => .ok (n, entry rows)
  | .sparse _ bs =>
    if ∀ b ∈ bs, fits s.numSamples b then
      .ok (s.numSamples, fun j i => match (bs.filter (Block.covers i)).getLast? with
        | none => 0
        | some b => entry b.rows j (i - b.offset))
    else .error .value

/-- `Signal.Create` of a list of blocks, `core/signal_model.py` 866-910: the offsets handed over serve single blocks
only, where they become a delay. -/
noncomputable def create (bs : List Block) (p : Params) (offsets : List Nat) : Except PyErr Sig :=
  open Classical in
  if p.Valid then
    match bs with
    | [b] => .ok (.dense { p with delay := p.delay + (match offsets with | [] => 0 | o :: _ => (o : ℝ) / p.rate) } b.len b.rows)
    | bs => .ok (.sparse p bs)
  else .error .value

/-! ### Beamformers -/

/-- `_encode` or `_decode` of a block for given angles. -/
abbrev Kernel := (n : Nat) → List (Fin n → ℂ) → Except PyErr (List (Fin n → ℂ))

/-- The end of `encode_streams`, `beamforming/beamformer.py` 333-345, and of `decode_streams`, lines 583-595.  Blocks
are handed over as plain arrays and the results, plain arrays too, are viewed as blocks whose offset is the default,
zero (`core/signal_model.py` 402 and 441). -/
noncomputable def perBlock (K : Kernel) (s : Sig) : Except PyErr Sig :=
  match collect (fun b : Block => (K b.len b.rows).map fun rows => (⟨0, b.len, rows⟩ : Block)) s.blocks with
  | .error e => .error e
  | .ok bs => create bs s.params s.offsets

/-- `TransmitBeamformer.encode_streams`, lines 265-345, for beamformers of a single input stream, which are all
(`conventional.py` 31-34, `nullsteeringbeamformer.py` 28-31).  `K` is the beamformer's `_encode` by angles. -/
noncomputable def encodeStreams (K : List (ℝ × ℝ) → Kernel) (b : Beamformer) (a : Array) (s : Sig)
    (given : Option (List Focus)) : Except PyErr Sig :=
  if s.numStreams ≠ 1 then .error .value
  else match focusAngles b a b.transmitFocus given with
    | .error e => .error e
    | .ok an => perBlock (K an) s

/-- `ReceiveBeamformer.decode_streams`, lines 522-595; the number of output streams asked for is not used. -/
noncomputable def decodeStreams (K : List (ℝ × ℝ) → Kernel) (b : Beamformer) (a : Array) (s : Sig)
    (given : Option (List Focus)) : Except PyErr Sig :=
  match focusAngles b a b.receiveFocus given with
  | .error e => .error e
  | .ok an => perBlock (K an) s

/-- `ConventionalBeamformer._encode`, `conventional.py` 94-117; several streams do not match the column of weights. -/
noncomputable def convEnc (a : Array) (f : ℝ) (an : List (ℝ × ℝ)) : Kernel := fun _ rows =>
  match an, rows with
  | x :: _, [s] => convEncode a f s x
  | [], _ => .error .index
  | _, _ => .error .value

/-- `ConventionalBeamformer._decode`, `conventional.py` 119-129: all rows of the first and only angle, a single one. -/
noncomputable def convDec (a : Array) (f : ℝ) (an : List (ℝ × ℝ)) : Kernel := fun n rows =>
  convDecode a f (Matrix.of fun (i : Fin rows.length) (k : Fin n) => rows[i] k) (an.take 1)

/-- `CaponBeamformer._decode`, `capon.py` 72-99. -/
noncomputable def caponDec (a : Array) (f loading : ℝ) (an : List (ℝ × ℝ)) : Kernel := fun n rows =>
  caponDecode a f loading (Matrix.of fun (i : Fin rows.length) (k : Fin n) => rows[i] k) (an.take 1)

/-! ### Operators -/

/-- The antennas of the state handed to operators, `core/state.py` 457 and 485 with `core/antennas.py` 1185-1220. -/
def stateArray (a : Array) (m : Mode) : Array := { a with antennas := a.select m }

/-- `SignalTransmitter._transmit`, `core/operators.py` 144-152: the signal with another sampling rate. -/
noncomputable def Sig.withRate (s : Sig) (r : ℝ) : Except PyErr Sig :=
  open Classical in
  if r ≤ 0 then .error .value
  else .ok (match s with
    | .dense p n rows => .dense { p with rate := r } n rows
    | .sparse p bs => .sparse { p with rate := r } bs)

/-- `BeamformingTransmitter._transmit`, `beamforming/operators.py` 68-79, on a device of antennas `a`, carrier
frequency `f` and sampling rate `r`. -/
noncomputable def transmit (K : Array → ℝ → List (ℝ × ℝ) → Kernel) (b : Beamformer) (s : Sig) (a : Array) (f r : ℝ) :
    Except PyErr Sig :=
  match s.withRate r with
  | .error e => .error e
  | .ok s' => encodeStreams (K (stateArray a .tx) f) b (stateArray a .tx) s' none

/-- `Receiver.receive`, `core/device.py` 663-704, of a `BeamformingReceiver`, `beamforming/operators.py` 134-147: the
device has `ports` digital ports, of which some may be selected. -/
noncomputable def receive (K : Array → ℝ → List (ℝ × ℝ) → Kernel) (b : Beamformer) (s : Sig) (a : Array) (f : ℝ)
    (ports : Nat) (selected : Option (List Nat)) : Except PyErr Sig :=
  if s.numStreams ≠ (match selected with | none => ports | some l => l.length) then .error .value
  else decodeStreams (K (stateArray a .rx) f) b (stateArray a .rx) s none

/-! ### Blocks -/

/-- When a sample is, `delay` and `timestamps`. -/
noncomputable def Sig.time (s : Sig) (i : Nat) : ℝ := s.params.delay + i / s.params.rate

theorem perBlock_one (K : Kernel) (s : Sig) (b : Block) (hb : s.blocks = [b]) (hv : s.params.Valid)
    (out : List (Fin b.len → ℂ)) (hK : K b.len b.rows = .ok out) (ho : s.offsets = [b.offset]) :
    perBlock K s = .ok (.dense { s.params with delay := s.params.delay + (b.offset : ℝ) / s.params.rate } b.len out) := by
  unfold perBlock
  rw [hb, collect, hK]
  simp only [Except.map, collect]
  unfold create
  rw [if_pos hv, ho]

/-- C142: what a beamformer makes of a dense signal are dense signals of the same attributes and number of samples. -/
theorem C142_dense (K : Kernel) (p : Params) (hv : p.Valid) (n : Nat) (rows out : List (Fin n → ℂ))
    (hK : K n rows = .ok out) : perBlock K (.dense p n rows) = .ok (.dense p n out) := by
  rw [perBlock_one K (.dense p n rows) ⟨0, n, rows⟩ rfl hv out hK rfl]
  simp [Sig.params]

/-- C142: single blocks keep their samples and the times these are at, although what precedes them becomes a delay. -/
theorem C142_single_partial (K : Kernel) (p : Params) (hv : p.Valid) (b : Block) (out : List (Fin b.len → ℂ))
    (hK : K b.len b.rows = .ok out) :
    ∃ r, perBlock K (.sparse p [b]) = .ok r ∧ r.numSamples = b.len ∧
      r.toDense = .ok (b.len, entry out) ∧ r.params.rate = p.rate ∧ r.params.carrier = p.carrier ∧
      r.params.noise = p.noise ∧ ∀ i, r.time i = (Sig.sparse p [b]).time (b.offset + i) := by
  refine ⟨_, perBlock_one K (.sparse p [b]) b rfl hv out hK rfl, rfl, rfl, rfl, rfl, rfl, fun i => ?_⟩
  simp only [Sig.time, Sig.params]
  push_cast
  ring

/-- C142: so the beamformed signal is shorter than the one given, and starts later. -/
theorem C142_single_fails (K : Kernel) (p : Params) (hv : p.Valid) (b : Block) (ho : 0 < b.offset)
    (out : List (Fin b.len → ℂ)) (hK : K b.len b.rows = .ok out) :
    ∃ r, perBlock K (.sparse p [b]) = .ok r ∧ r.numSamples < (Sig.sparse p [b]).numSamples ∧
      p.delay < r.params.delay := by
  refine ⟨_, perBlock_one K (.sparse p [b]) b rfl hv out hK rfl, ?_, ?_⟩
  · simp only [Sig.numSamples, List.getLast?_singleton]; omega
  · simp only [Sig.params]
    have h1 : 0 < p.rate := hv.1
    have h2 : (0 : ℝ) < b.offset := by exact_mod_cast ho
    have := div_pos h2 h1
    linarith

/-- Attributes and blocks of examples: two blocks of a stream with a gap of three samples. -/
noncomputable def plain : Params := ⟨1, 0, 0, 0⟩

def early : Block := ⟨0, 3, [fun i => i.val + 1]⟩

def late : Block := ⟨6, 2, [fun _ => 5]⟩

theorem plain_valid : plain.Valid := by simp [Params.Valid, plain]

example (f az ze : ℝ) : ∃ out, convEnc (pair (assemble turn 0) f) f [(az, ze)] late.len late.rows = .ok out := by
  obtain ⟨rows, h, _⟩ := C82_transmit (pair (assemble turn 0) f) f (by simp [pair, Array.select])
    (fun _ : Fin 2 => (5 : ℂ)) az ze
  exact ⟨rows, h⟩

theorem perBlock_many (K : Kernel) (p : Params) (hv : p.Valid) (bs : List Block) (h2 : bs.length ≠ 1)
    (out : (b : Block) → List (Fin b.len → ℂ)) (hK : ∀ b ∈ bs, K b.len b.rows = .ok (out b)) :
    perBlock K (.sparse p bs) = .ok (.sparse p (bs.map fun b => ⟨0, b.len, out b⟩)) := by
  unfold perBlock
  have hc : collect (fun b : Block => (K b.len b.rows).map fun rows => (⟨0, b.len, rows⟩ : Block))
      (Sig.sparse p bs).blocks = .ok (bs.map fun b => ⟨0, b.len, out b⟩) := by
    refine collect_ok fun b hb => ?_
    rw [hK b hb]
    rfl
  rw [hc]
  dsimp only
  unfold create
  rw [if_pos (show (Sig.sparse p bs).params.Valid from hv)]
  rcases bs with _ | ⟨b, _ | ⟨c, cs⟩⟩
  · rfl
  · simp at h2
  · rfl

/-- C142: of several blocks all are moved to the first sample, whatever the beamformer: the signal is shorter than the
one given; if all blocks are no longer than the last, only that one remains, and otherwise the samples cannot be read at
all. -/
theorem C142_blocks_fails (K : Kernel) (p : Params) (hv : p.Valid) (bs : List Block) (last : Block)
    (hl : bs ≠ []) (out : (b : Block) → List (Fin b.len → ℂ))
    (hK : ∀ b ∈ bs ++ [last], K b.len b.rows = .ok (out b)) (ho : 0 < last.offset) :
    ∃ r, perBlock K (.sparse p (bs ++ [last])) = .ok r ∧ (∀ o ∈ r.offsets, o = 0) ∧
      r.numSamples = last.len ∧ r.numSamples < (Sig.sparse p (bs ++ [last])).numSamples ∧
      ((∀ b ∈ bs, b.len ≤ last.len) → ∃ x, r.toDense = .ok (last.len, x) ∧
        ∀ j, ∀ i < last.len, x j i = entry (out last) j i) ∧
      ((∃ b ∈ bs, last.len < b.len ∧ b.len ≠ 1) → r.toDense = .error .value) := by
  have hne : (bs ++ [last]).length ≠ 1 := by
    have := List.length_pos_iff.mpr hl
    simp; omega
  have hN : (Sig.sparse p ((bs ++ [last]).map fun b => (⟨0, b.len, out b⟩ : Block))).numSamples = last.len := by
    simp [Sig.numSamples]
  refine ⟨_, perBlock_many K p hv _ hne out hK, ?_, hN, ?_, ?_, ?_⟩
  · intro o h
    simp only [Sig.offsets, List.map_map, List.mem_map] at h
    obtain ⟨b, _, rfl⟩ := h
    rfl
  · rw [hN]; simp only [Sig.numSamples, List.getLast?_append, List.getLast?_singleton,
      Option.some_or]; omega
  · intro h
    unfold Sig.toDense
    dsimp only
    rw [hN, if_pos]
    · refine ⟨_, rfl, fun j i hi => ?_⟩
      simp only [List.map_append, List.map_cons, List.map_nil, List.filter_append]
      have : List.filter (Block.covers i) [(⟨0, last.len, out last⟩ : Block)] = [⟨0, last.len, out last⟩] := by
        simp [Block.covers, hi]
      rw [this]
      simp
    · intro c hc
      obtain ⟨b, hb, rfl⟩ := List.mem_map.mp hc
      right
      have : b.len ≤ last.len := by
        rcases List.mem_append.mp hb with h' | h'
        · exact h b h'
        · simp only [List.mem_singleton] at h'; rw [h']
      simp only [Nat.zero_add, Nat.zero_min, Nat.sub_zero]
      omega
  · rintro ⟨b, hb, h1, h2⟩
    unfold Sig.toDense
    dsimp only
    rw [hN, if_neg]
    intro h
    have := h ⟨0, b.len, out b⟩ (List.mem_map.mpr ⟨b, by simp [hb], rfl⟩)
    unfold fits at this
    simp only [Nat.zero_add, Nat.zero_min, Nat.sub_zero] at this
    omega

/-- Two blocks beamformed onto two antennas: three samples and two, of which the dense samples cannot be formed. -/
example (f az ze : ℝ) : ∃ r, perBlock (convEnc (pair (assemble turn 0) f) f [(az, ze)]) (.sparse plain [early, late]) =
    .ok r ∧ r.numSamples = 2 ∧ r.toDense = .error .value := by
  have hn : ((pair (assemble turn 0) f).select .tx).length ≠ 0 := by simp [pair, Array.select]
  obtain ⟨r, h1, _, h3, _, _, h6⟩ := C142_blocks_fails (convEnc (pair (assemble turn 0) f) f [(az, ze)]) plain plain_valid
    [early] late (by simp)
    (fun b => (steering (pair (assemble turn 0) f) f .tx (az, ze)).map fun w k => w * (b.rows.headD 0) k)
    (by
      intro b hb
      simp only [List.cons_append, List.nil_append, List.mem_cons, List.not_mem_nil, or_false] at hb
      rcases hb with rfl | rfl
      · simp [convEnc, early, convEncode, hn, List.headD]
      · simp [convEnc, late, convEncode, hn, List.headD]) (by decide)
  exact ⟨r, h1, h3, h6 ⟨early, by simp, by decide, by decide⟩⟩

/-! ### Refusals -/

/-- C142: other numbers of streams than one, and other numbers of focus points than the beamformer's, are refused. -/
theorem C142_refused (K : List (ℝ × ℝ) → Kernel) (b : Beamformer) (a : Array) (s : Sig) (given : Option (List Focus)) :
    (s.numStreams ≠ 1 → encodeStreams K b a s given = .error .value) ∧
    ((given.getD b.transmitFocus).length ≠ b.kind.points → encodeStreams K b a s given = .error .value) ∧
    ((given.getD b.receiveFocus).length ≠ b.kind.points → decodeStreams K b a s given = .error .value) := by
  refine ⟨fun h => by rw [encodeStreams, if_pos h], fun h => ?_, fun h => ?_⟩
  · unfold encodeStreams
    by_cases h1 : s.numStreams ≠ 1
    · rw [if_pos h1]
    · rw [if_neg h1, focusAngles, if_pos h]
  · rw [decodeStreams, focusAngles, if_pos h]

/-- C142: silence, sparse signals without blocks, is refused by transmitting beamformers although its silence is what
would be transmitted. -/
theorem C142_silence_fails (K : List (ℝ × ℝ) → Kernel) (b : Beamformer) (a : Array) (p : Params)
    (given : Option (List Focus)) : encodeStreams K b a (.sparse p []) given = .error .value :=
  (C142_refused K b a (.sparse p []) given).1 (by simp [Sig.numStreams])

/-! ### Operators with the conventional beamformer -/

theorem select_state (a : Array) (m : Mode) : (stateArray a m).select m = a.select m := by
  cases m <;> simp [stateArray, Array.select]

theorem offsets_state (a : Array) (m : Mode) : offsets (stateArray a m) m = offsets a m := by
  unfold offsets
  rw [select_state]
  rfl

theorem radiated_state (a : Array) (f : ℝ) (u : Vec3) {t : Nat} (rows : List (Fin t → ℂ)) (k : Fin t) :
    radiated (stateArray a .tx) f u rows k = radiated a f u rows k := by
  rw [radiated, radiated, offsets_state]

/-- C142: a beamforming transmitter feeds the antennas with one dense signal of the device's rate, with one stream per
transmitting antenna, each of the power of its signal, which add up coherently in the direction its beamformer focuses
and to no more anywhere else.  The direction is an angle of space as in C82. -/
theorem C142_transmit_partial (b : Beamformer) (hk : b.kind = .conventional) (az ze : ℝ)
    (hb : b.transmitFocus = [.spherical az ze]) (p : Params) (hv : p.Valid) (n : Nat) (x : Fin n → ℂ) (a : Array)
    (ha : (a.select .tx).length ≠ 0) (f r : ℝ) (hr : 0 < r) :
    ∃ rows, transmit convEnc b (.dense p n [x]) a f r = .ok (.dense { p with rate := r } n rows) ∧
      rows.length = (a.select .tx).length ∧ (∀ row ∈ rows, ∀ k, ‖row k‖ = ‖x k‖) ∧
      (∀ k, radiated a f (fromSpherical az ze) rows k = (a.select .tx).length * x k) ∧
      ∀ u k, ‖radiated a f u rows k‖ ≤ (a.select .tx).length * ‖x k‖ := by
  have hs := select_state a .tx
  obtain ⟨rows, h1, h2, h3, h4, h5⟩ := C82_transmit (stateArray a .tx) f (by rw [hs]; exact ha) x az ze
  rw [hs] at h2
  refine ⟨rows, ?_, h2, h3, fun k => ?_, fun u k => ?_⟩
  · unfold transmit Sig.withRate
    rw [if_neg (not_le.mpr hr)]
    dsimp only
    rw [encodeStreams, if_neg (by simp [Sig.numStreams]), focusAngles]
    simp only [Option.getD_none, hb, hk, Kind.points, List.length_singleton, ne_eq, not_true_eq_false, if_false, collect,
      Focus.angles]
    exact C142_dense _ { p with rate := r } ⟨hr, hv.2⟩ n [x] rows h1
  · have := h4 k
    rwa [radiated_state, hs] at this
  · have := h5 u k
    rwa [radiated_state, hs] at this

theorem perBlock_params (K : Kernel) (s t : Sig) (h : perBlock K s = .ok t) : t.params.rate = s.params.rate ∧
    t.params.carrier = s.params.carrier ∧ t.params.noise = s.params.noise := by
  unfold perBlock at h
  cases hc : collect (fun b : Block => (K b.len b.rows).map fun rows => (⟨0, b.len, rows⟩ : Block)) s.blocks with
  | error e => rw [hc] at h; cases h
  | ok bs =>
    rw [hc] at h
    dsimp only at h
    unfold create at h
    by_cases hv : s.params.Valid
    · rw [if_pos hv] at h
      rcases bs with _ | ⟨b, _ | ⟨c, cs⟩⟩ <;> · cases h; exact ⟨rfl, rfl, rfl⟩
    · rw [if_neg hv] at h; cases h

/-- C142: whatever is sent, dense or sparse and by any beamformer, has the rate of the device and the carrier frequency
and noise power of the signal; devices without a positive rate send nothing. -/
theorem C142_rate (K : Array → ℝ → List (ℝ × ℝ) → Kernel) (b : Beamformer) (s : Sig) (a : Array) (f r : ℝ) :
    (r ≤ 0 → transmit K b s a f r = .error .value) ∧
    ∀ t, transmit K b s a f r = .ok t →
      t.params.rate = r ∧ t.params.carrier = s.params.carrier ∧ t.params.noise = s.params.noise := by
  constructor
  · intro hr
    unfold transmit Sig.withRate
    rw [if_pos hr]
  · intro t h
    cases hw : s.withRate r with
    | error e => rw [transmit, hw] at h; cases h
    | ok s' =>
      have hs : s'.params.rate = r ∧ s'.params.carrier = s.params.carrier ∧ s'.params.noise = s.params.noise := by
        unfold Sig.withRate at hw
        by_cases hr : r ≤ 0
        · rw [if_pos hr] at hw; cases hw
        · rw [if_neg hr] at hw
          cases s <;> · cases hw; exact ⟨rfl, rfl, rfl⟩
      rw [transmit, hw] at h
      dsimp only at h
      rw [encodeStreams] at h
      by_cases h1 : s'.numStreams ≠ 1
      · rw [if_pos h1] at h; cases h
      · rw [if_neg h1] at h
        cases hf : focusAngles b (stateArray a .tx) b.transmitFocus none with
        | error e => rw [hf] at h; cases h
        | ok an =>
          rw [hf] at h
          obtain ⟨g1, g2, g3⟩ := perBlock_params _ _ _ h
          rw [g1, g2, g3]
          exact hs

/-- C142: a beamforming receiver returns waves from the direction focused, as one stream, unchanged, with the
attributes of what was received. -/
theorem C142_receive_partial (b : Beamformer) (hk : b.kind = .conventional) (az ze : ℝ)
    (hb : b.receiveFocus = [.spherical az ze]) (p : Params) (hv : p.Valid) (n : Nat) (x : Fin n → ℂ) (a : Array)
    (ha : (a.select .rx).length ≠ 0) (f : ℝ) (selected : Option (List Nat)) (ports : Nat)
    (hp : (match selected with | none => ports | some l => l.length) = (a.select .rx).length) :
    receive convDec b (.dense p n (List.ofFn fun i k => arriving a f (fromSpherical az ze) rfl x i k)) a f ports selected =
      .ok (.dense p n [x]) := by
  have hs := select_state a .rx
  unfold receive
  rw [if_neg (by rw [hp]; simp [Sig.numStreams])]
  rw [decodeStreams, focusAngles]
  simp only [Option.getD_none, hb, hk, Kind.points, List.length_singleton, ne_eq, not_true_eq_false, if_false, collect,
    Focus.angles]
  refine C142_dense _ p hv n _ _ ?_
  unfold convDec
  have hlen : ((stateArray a .rx).select .rx).length =
      (List.ofFn fun i k => arriving a f (fromSpherical az ze) rfl x i k).length := by rw [hs]; simp
  have key := C82_receive (stateArray a .rx) f hlen (by simpa using ha) x az ze
  simp only [List.take_succ_cons, List.take_nil]
  rw [← key]
  congr 1
  funext i k
  change (List.ofFn fun i k => arriving a f (fromSpherical az ze) rfl x i k)[i.val] k = _
  rw [List.getElem_ofFn]
  simp only [arriving, hs]
  rfl

/-- C142: with the Capon beamformer a receiver returns, of every dense signal, the weighted sum of its streams of least
power (that of the weights counted with the loading) among those which keep waves from the direction focused; the
weights belong to the whole signal. -/
theorem C142_capon_partial (b : Beamformer) (loading : ℝ) (hk : b.kind = .capon loading) (hl : 0 < loading) (az ze : ℝ)
    (hb : b.receiveFocus = [.spherical az ze]) (p : Params) (hv : p.Valid) (n : Nat) (rows : List (Fin n → ℂ)) (a : Array)
    (hF : Rigid a.forwards) (hx : ∀ x ∈ a.antennas, Rigid x.pose) (ha : (a.select .rx).length = rows.length)
    (hn : rows ≠ []) (f : ℝ) :
    ∃ (l : List ℂ) (hll : l.length = rows.length) (w : Fin rows.length → ℂ), a.sphericalPhase f az ze .rx = .ok l ∧
      receive (fun a f => caponDec a f loading) b (.dense p n rows) a f rows.length none =
        .ok (.dense p n [fun k => ∑ i, star (w i) * rows[i] k]) ∧
      (∑ i : Fin rows.length, star (w i) * l[i.val]'(by rw [hll]; exact i.isLt)) = 1 ∧
      ∀ v : Fin rows.length → ℂ, (∑ i : Fin rows.length, star (v i) * l[i.val]'(by rw [hll]; exact i.isLt)) = 1 →
        (∑ k, ‖∑ i, star (w i) * rows[i] k‖ ^ 2) + loading * ∑ i, ‖w i‖ ^ 2 ≤
          (∑ k, ‖∑ i, star (v i) * rows[i] k‖ ^ 2) + loading * ∑ i, ‖v i‖ ^ 2 := by
  have hs := select_state a .rx
  have hx' : ∀ x ∈ (stateArray a .rx).antennas, Rigid x.pose := fun x h => hx x (List.mem_of_mem_filter h)
  have hphase : (stateArray a .rx).sphericalPhase f az ze .rx = a.sphericalPhase f az ze .rx := by
    rw [spherical_eq a hF hx, spherical_eq (stateArray a .rx) hF hx', hs]
  obtain ⟨l, hll, w, h1, h2, h3, h4⟩ := C83_capon (stateArray a .rx) hF hx' f loading hl.le (by rw [hs]; exact ha)
    (by simpa using hn) (Matrix.of fun (i : Fin rows.length) (k : Fin n) => rows[i] k) (Or.inl hl) az ze
  refine ⟨l, hll, w, hphase ▸ h1, ?_, h3, fun v hv => h4 v hv⟩
  unfold receive
  rw [if_neg (by simp [Sig.numStreams])]
  rw [decodeStreams, focusAngles]
  simp only [Option.getD_none, hb, hk, Kind.points, List.length_singleton, ne_eq, not_true_eq_false, if_false, collect,
    Focus.angles]
  exact C142_dense _ p hv n _ _ h2

/-- C142: receivers which selected another number of ports than the device has receiving antennas refuse everything: the
beamformer expects the streams of all antennas. -/
theorem C142_selected_fails (b : Beamformer) (hk : b.kind = .conventional) (s : Sig)
    (hs : s.blocks ≠ []) (hr : ∀ c ∈ s.blocks, c.rows.length = s.numStreams) (a : Array) (f : ℝ) (ports : Nat)
    (l : List Nat) (hl : l.length ≠ (a.select .rx).length) (az ze : ℝ) (hf : b.receiveFocus = [.spherical az ze]) :
    receive convDec b s a f ports (some l) = .error .value := by
  unfold receive
  by_cases h : s.numStreams ≠ l.length
  · dsimp only; rw [if_pos h]
  · dsimp only
    rw [if_neg h]
    push Not at h
    rw [decodeStreams, focusAngles]
    simp only [Option.getD_none, hf, hk, Kind.points, List.length_singleton, ne_eq, not_true_eq_false, if_false, collect,
      Focus.angles]
    unfold perBlock
    obtain ⟨c, cs, hc⟩ := List.exists_cons_of_ne_nil hs
    rw [hc, collect]
    have : convDec (stateArray a .rx) f [(az, ze)] c.len c.rows = .error .value := by
      refine (C82_streams (stateArray a .rx) f _ _).1 (Or.inl ?_)
      rw [select_state, hr c (by simp [hc]), h]
      exact Ne.symm hl
    rw [this]
    rfl

example (p : ℝ) (x : Fin 4 → ℂ) : ([x, x] : List (Fin 4 → ℂ)) ≠ [] ∧
    ((pair (assemble turn 0) p).select .rx).length = [x, x].length := by simp [pair, Array.select]

example (f : ℝ) : [0].length ≠ ((pair (assemble turn 0) f).select .rx).length := by simp [pair, Array.select]

/-- C142: beamforming transmitters disregard the ports selected, they send one stream per transmitting antenna. -/
theorem C142_ports_fails (b : Beamformer) (hk : b.kind = .conventional) (az ze : ℝ)
    (hb : b.transmitFocus = [.spherical az ze]) (p : Params) (hv : p.Valid) (n : Nat) (x : Fin n → ℂ) (a : Array)
    (l : List Nat) (hl : l.length < (a.select .tx).length) (f r : ℝ) (hr : 0 < r) :
    ∃ t, transmit convEnc b (.dense p n [x]) a f r = .ok t ∧ l.length < t.numStreams := by
  obtain ⟨rows, h1, h2, _⟩ := C142_transmit_partial b hk az ze hb p hv n x a (by omega) f r hr
  exact ⟨_, h1, by simp only [Sig.numStreams]; omega⟩

example (f : ℝ) : [0].length < ((pair (assemble turn 0) f).select .tx).length := by simp [pair, Array.select]

example (k : Kind) (hk : k = .conventional) : (Beamformer.create k).kind = .conventional ∧
    (Beamformer.create k).transmitFocus = [.spherical 0 0] ∧ (Beamformer.create k).receiveFocus = [.spherical 0 0] := by
  subst hk; exact ⟨rfl, rfl, rfl⟩

end Verif.BeamStreams
