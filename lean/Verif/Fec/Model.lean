import Verif.Np

/-!
# Forward error correction: model of `hermespy/fec`

Bits are `Bool`. Random generators are oracles, passed as explicit arguments.
-/

namespace Verif.Fec

/-! ## Repetition code -/

/-- Constructor validation of `RepetitionEncoder`.
`hermespy/fec/repetition_encoder.py` 69-82, 102-107 (`bit_block_size` setter), 131-139
(`repetitions` setter). Returns the pair `(K, M)` on success. -/
def repetitionNew (K M : Int) : Except PyErr (Nat × Nat) :=
  if K < 1 then .error .value
  else if M < 1 then .error .value
  else if M % 2 = 0 then .error .value
  else .ok (K.toNat, M.toNat)

/-- `RepetitionEncoder.encode`: `np.tile(bits, repetitions)`.
`hermespy/fec/repetition_encoder.py` 84-86. -/
def repetitionEncode (M : Nat) (bits : List Bool) : List Bool := Np.tile M bits

/-- `RepetitionEncoder.decode`: identity for one repetition, otherwise reshape to
`(repetitions, bit_block_size)` and majority vote `sum / repetitions >= 0.5` per column
(written as `repetitions <= 2 * sum`).
`hermespy/fec/repetition_encoder.py` 88-96. -/
def repetitionDecode (K M : Nat) (code : List Bool) : Except PyErr (List Bool) :=
  if M = 1 then .ok code
  else do
    let rows ← Np.reshape M K code
    .ok ((Np.transpose K rows).map fun col => decide (M ≤ 2 * col.count true))

/-! ## Block interleaver -/

/-- Constructor check of `BlockInterleaver` (`block_size % interleave_blocks`; a zero modulus
raises `ZeroDivisionError`). `hermespy/fec/block_interleaver.py` 62-86. -/
def interleaverNew (N M : Nat) : Except PyErr Unit :=
  if M = 0 then .error .zeroDivision
  else if N % M ≠ 0 then .error .value
  else .ok ()

/-- `BlockInterleaver.encode`: `bits.reshape((M, -1)).T.flatten()`.
`hermespy/fec/block_interleaver.py` 88-89. -/
def interleaverEncode {α : Type _} (M : Nat) (bits : List α) : Except PyErr (List α) :=
  if M = 0 ∨ bits.length % M ≠ 0 then .error .value
  else do
    let rows ← Np.reshape M (bits.length / M) bits
    .ok (Np.flatten (Np.transpose (bits.length / M) rows))

/-- `BlockInterleaver.decode`: `encoded_bits.reshape((-1, M)).T.flatten()`.
`hermespy/fec/block_interleaver.py` 91-92. -/
def interleaverDecode {α : Type _} (M : Nat) (code : List α) : Except PyErr (List α) :=
  if M = 0 ∨ code.length % M ≠ 0 then .error .value
  else do
    let rows ← Np.reshape (code.length / M) M code
    .ok (Np.flatten (Np.transpose M rows))

/-! ## Cyclic redundancy check mock -/

/-- Constructor validation of `CyclicRedundancyCheck`.
`hermespy/fec/cyclic_redundancy_check.py` 45-61, 73-78, 94-99. -/
def crcNew (K Q : Int) : Except PyErr (Nat × Nat) :=
  if K < 1 then .error .value
  else if Q < 0 then .error .value
  else .ok (K.toNat, Q.toNat)

/-- `CyclicRedundancyCheck.encode`; `check` are the random bits returned by
`rng.integers(0, 2, check_block_size)`.
`hermespy/fec/cyclic_redundancy_check.py` 63-64. -/
def crcEncode (check : List Bool) (data : List Bool) : List Bool := data ++ check

/-- Python's `xs[:stop]` for an integer `stop`: a negative `stop` counts from the end. -/
def pySliceTo {α : Type _} (xs : List α) (stop : Int) : List α :=
  if stop < 0 then xs.take (xs.length - stop.natAbs) else xs.take stop.toNat

/-- `CyclicRedundancyCheck.decode`: `code[: -check_block_size]`.
`hermespy/fec/cyclic_redundancy_check.py` 66-67. -/
def crcDecode (Q : Nat) (code : List Bool) : List Bool := pySliceTo code (-(Q : Int))

/-! ## 3GPP scrambler -/

/-- State of `PseudoRandomGenerator`: the two bounded queues.
`hermespy/fec/scrambler.py` 33-43. (The copies kept for `reset` are the constructor's result.) -/
structure Prng where
  q1 : List Bool
  q2 : List Bool
  deriving DecidableEq, Repr

/-- `deque[i]`, resp. `deque[-i]` on a queue of at least 4 bits. Out of range positions do not
occur: `C04_prng_queues_never_underflow` shows that queues keep their length. -/
def qAt (q : List Bool) (i : Nat) : Bool := q[i]?.getD false

/-- `deque[-i]`. -/
def qBack (q : List Bool) (i : Nat) : Bool := q[q.length - i]?.getD false

/-- `deque.append(x)` on a full bounded queue: the left-most element falls out. -/
def qAppend (q : List Bool) (x : Bool) : List Bool := (q ++ [x]).drop 1

/-- `PseudoRandomGenerator.__forward_x1`. `hermespy/fec/scrambler.py` 114-118. -/
def Prng.forwardX1 (s : Prng) : Bool × Prng :=
  let x1 := (qBack s.q1 3) ^^ (qAt s.q1 0)
  (x1, { s with q1 := qAppend s.q1 x1 })

/-- `PseudoRandomGenerator.__forward_x2` (the last summand reads the *first* queue, as in the
code). `hermespy/fec/scrambler.py` 120-126. -/
def Prng.forwardX2 (s : Prng) : Bool × Prng :=
  let x2 := (((qBack s.q2 3) ^^ (qBack s.q2 2)) ^^ (qBack s.q2 1)) ^^ (qAt s.q1 0)
  (x2, { s with q2 := qAppend s.q2 x2 })

/-- One fast-forward step of the constructor. `hermespy/fec/scrambler.py` 71-73. -/
def Prng.skip (s : Prng) : Prng := (s.forwardX1.2).forwardX2.2

/-- `PseudoRandomGenerator.__init__`. `hermespy/fec/scrambler.py` 45-77. -/
def Prng.new (seed : List Bool) (offset : Nat := 1600) : Except PyErr Prng :=
  if seed.length < 4 then .error .value
  else
    let q1 := (true :: List.replicate seed.length false).take seed.length
    .ok ((Prng.skip)^[offset - seed.length] { q1 := q1, q2 := seed })

/-- `PseudoRandomGenerator.generate`. `hermespy/fec/scrambler.py` 79-87. -/
def Prng.generate (s : Prng) : Bool × Prng :=
  let r1 := s.forwardX1
  let r2 := r1.2.forwardX2
  (r1.1 ^^ r2.1, r2.2)

/-- `PseudoRandomGenerator.generate_sequence`. `hermespy/fec/scrambler.py` 89-103. -/
def Prng.generateSequence : Nat → Prng → List Bool × Prng
  | 0, s => ([], s)
  | n + 1, s =>
    let r := s.generate
    let rs := generateSequence n r.2
    (r.1 :: rs.1, rs.2)

/-- `Scrambler3GPP` state: independent transmit and receive generators.
`hermespy/fec/scrambler.py` 129-155. -/
structure Scrambler3GPP where
  tx : Prng
  rx : Prng

/-- `Scrambler3GPP.__init__`. `hermespy/fec/scrambler.py` 139-155. -/
def Scrambler3GPP.new (seed : List Bool) : Except PyErr Scrambler3GPP := do
  let tx ← Prng.new seed
  let rx ← Prng.new seed
  .ok { tx := tx, rx := rx }

/-- `Scrambler3GPP.encode`. `hermespy/fec/scrambler.py` 157-161. -/
def Scrambler3GPP.encode (s : Scrambler3GPP) (data : List Bool) : List Bool × Scrambler3GPP :=
  let r := s.tx.generateSequence data.length
  (List.zipWith (fun d c => d ^^ c) data r.1, { s with tx := r.2 })

/-- `Scrambler3GPP.decode`. `hermespy/fec/scrambler.py` 163-167. -/
def Scrambler3GPP.decode (s : Scrambler3GPP) (code : List Bool) : List Bool × Scrambler3GPP :=
  let r := s.rx.generateSequence code.length
  (List.zipWith (fun d c => d ^^ c) code r.1, { s with rx := r.2 })

/-- One call on a scrambler object. -/
inductive ScrOp where
  | encode (block : List Bool)
  | decode (block : List Bool)

/-- A history of calls on one `Scrambler3GPP`; returns the results in call order. -/
def Scrambler3GPP.run : Scrambler3GPP → List ScrOp → List (List Bool)
  | _, [] => []
  | s, .encode b :: ops => let r := s.encode b; r.1 :: run r.2 ops
  | s, .decode b :: ops => let r := s.decode b; r.1 :: run r.2 ops

/-! ## 802.11a scrambler -/

/-- `Scrambler80211a` state: the single shared queue. `hermespy/fec/scrambler.py` 193-211. -/
structure Scrambler80211a where
  queue : List Bool
  deriving DecidableEq, Repr

/-- `Scrambler80211a.__init__`: `deque(seed, 7)` keeps the last seven entries; no validation.
`hermespy/fec/scrambler.py` 197-211. -/
def Scrambler80211a.new (seed : List Bool) : Scrambler80211a :=
  { queue := seed.drop (seed.length - 7) }

/-- `Scrambler80211a.seed` setter (bits are `Bool`, so only the length check remains).
`hermespy/fec/scrambler.py` 231-241. -/
def Scrambler80211a.setSeed (_s : Scrambler80211a) (seed : List Bool) :
    Except PyErr Scrambler80211a :=
  if seed.length ≠ 7 then .error .value else .ok { queue := seed }

/-- `Scrambler80211a.__forward_code_bit`: `IndexError` on a queue shorter than seven.
`hermespy/fec/scrambler.py` 251-264. -/
def Scrambler80211a.forward (s : Scrambler80211a) : Except PyErr (Bool × Scrambler80211a) :=
  match s.queue[3]?, s.queue[6]? with
  | some a, some b => .ok (a ^^ b, { queue := ((a ^^ b) :: s.queue).take 7 })
  | _, _ => .error .index

/-- `Scrambler80211a.encode` and `.decode` have the same body.
`hermespy/fec/scrambler.py` 243-249, 266-276. -/
def Scrambler80211a.scramble : Scrambler80211a → List Bool →
    Except PyErr (List Bool × Scrambler80211a)
  | s, [] => .ok ([], s)
  | s, b :: bs => do
    let (c, s1) ← s.forward
    let (cs, s2) ← s1.scramble bs
    .ok ((c ^^ b) :: cs, s2)

/-- `Scrambler80211a.encode`. `hermespy/fec/scrambler.py` 243-245. -/
def Scrambler80211a.encode (s : Scrambler80211a) (data : List Bool) := s.scramble data

/-- `Scrambler80211a.decode`. `hermespy/fec/scrambler.py` 247-249. -/
def Scrambler80211a.decode (s : Scrambler80211a) (code : List Bool) := s.scramble code

/-- Encode a list of blocks one after the other. -/
def Scrambler80211a.runBlocks : Scrambler80211a → List (List Bool) →
    Except PyErr (List (List Bool) × Scrambler80211a)
  | s, [] => .ok ([], s)
  | s, b :: bs => do
    let (c, s1) ← s.scramble b
    let (cs, s2) ← s1.runBlocks bs
    .ok (c :: cs, s2)

/-! ## Encoder manager -/

/-- An `Encoder` as seen by the manager: block sizes, `enabled` flag and stateful coding
functions over a state type `σ` (random generators and shift registers live in `σ`; stateless
encoders ignore it). `hermespy/fec/coding.py` 22-155. -/
structure Encoder (σ : Type) where
  K : Nat
  L : Nat
  enabled : Bool
  enc : σ → List Bool → List Bool × σ
  dec : σ → List Bool → List Bool × σ
  /-- current internal state -/
  st : σ

/-- `EncoderManager`: flags and the ordered encoder list. `hermespy/fec/coding.py` 158-195. -/
structure Manager (σ : Type) where
  encoders : List (Encoder σ)
  allowPadding : Bool
  allowTruncating : Bool

variable {σ : Type}

/-- `EncoderManager.add_encoder` with `__execution_order` (Python's `sorted` is stable).
`hermespy/fec/coding.py` 197-210, 413-420. -/
def Manager.addEncoder (m : Manager σ) (e : Encoder σ) : Manager σ :=
  { m with encoders := (m.encoders ++ [e]).mergeSort fun a b => decide (a.K ≤ b.K) }

/-- `len` random bits of the manager's generator, starting at stream position `pos`.
`self._rng.integers(0, 2, n, dtype=bool)`. -/
def drawBits (rng : Nat → Bool) (pos n : Nat) : List Bool :=
  (List.range n).map fun i => rng (pos + i)

/-- The block loop of encoding: consecutive `K`-bit slices are encoded and assigned to
consecutive `L`-bit slices (`ValueError` if the encoder returns another length; numpy's
broadcasting of one-element results is not modelled).
`hermespy/fec/coding.py` 269-276. -/
def encodeBlocks (e : Encoder σ) : Nat → σ → List Bool → Except PyErr (List Bool × σ)
  | 0, s, _ => .ok ([], s)
  | n + 1, s, d => do
    let r := e.enc s (d.take e.K)
    if r.1.length ≠ e.L then .error .value
    let (cs, s2) ← encodeBlocks e n r.2 (d.drop e.K)
    .ok (r.1 ++ cs, s2)

/-- One iteration of the encoder loop. `hermespy/fec/coding.py` 244-276. Returns the new code
state, the encoder with its new internal state, and the generator position. -/
def encodeStage (rng : Nat → Bool) (allowPadding : Bool) (e : Encoder σ) (pos : Nat)
    (data : List Bool) : Except PyErr (List Bool × Encoder σ × Nat) :=
  if !e.enabled then .ok (data, e, pos)
  else if e.K = 0 then .error .zeroDivision
  else
    let numBlocks := (data.length + e.K - 1) / e.K
    let required := numBlocks * e.K
    if data.length < required ∧ allowPadding = false then .error .runtime
    else do
      let padded := data ++ drawBits rng pos (required - data.length)
      let (code, s) ← encodeBlocks e numBlocks e.st padded
      .ok (code, { e with st := s }, pos + (required - data.length))

/-- The encoder loop. `hermespy/fec/coding.py` 241-276. -/
def encodeChain (rng : Nat → Bool) (allowPadding : Bool) :
    List (Encoder σ) → Nat → List Bool → Except PyErr (List Bool × List (Encoder σ) × Nat)
  | [], pos, data => .ok (data, [], pos)
  | e :: es, pos, data => do
    let (c, e1, p1) ← encodeStage rng allowPadding e pos data
    let (c2, es2, p2) ← encodeChain rng allowPadding es p1 c
    .ok (c2, e1 :: es2, p2)

/-- `EncoderManager.code_block_size`: last enabled encoder, else one.
`hermespy/fec/coding.py` 398-411. -/
def Manager.codeBlockSize (m : Manager σ) : Nat :=
  match m.encoders.reverse.find? (·.enabled) with
  | some e => e.L
  | none => 1

/-- Second loop of `bit_block_size`. `int(x / y)` of non-negative numbers is floor division;
`rate = K / L` is taken as an exact fraction, `int(r / rate) = r * L / K`.
`hermespy/fec/coding.py` 388-396. -/
def blockSizeLoop : List (Encoder σ) → Nat → Nat → Except PyErr Nat
  | [], blockSize, _ => .ok blockSize
  | e :: es, blockSize, numBits =>
    if !e.enabled then blockSizeLoop es blockSize numBits
    else if numBits = 0 ∨ e.L = 0 ∨ e.K = 0 then .error .zeroDivision
    else
      let reps := e.K / numBits
      blockSizeLoop es (blockSize * reps) (numBits * (reps * e.L / e.K))

/-- First loop of `bit_block_size`: find the first enabled encoder.
`hermespy/fec/coding.py` 375-396. -/
def bitBlockSizeOf : List (Encoder σ) → Except PyErr Nat
  | [] => .ok 1
  | e :: es => if e.enabled then blockSizeLoop es e.K e.L else bitBlockSizeOf es

/-- `EncoderManager.bit_block_size`. `hermespy/fec/coding.py` 367-396. -/
def Manager.bitBlockSize (m : Manager σ) : Except PyErr Nat := bitBlockSizeOf m.encoders

/-- `EncoderManager.encode`. `hermespy/fec/coding.py` 223-297 (`num_code_bits = 0` and `None`
behave alike, so `0` stands for both). -/
def Manager.encode (m : Manager σ) (rng : Nat → Bool) (pos : Nat) (data : List Bool)
    (numCodeBits : Nat) : Except PyErr (List Bool × Manager σ × Nat) := do
  let (code, es, p) ← encodeChain rng m.allowPadding m.encoders pos data
  let m' : Manager σ := { m with encoders := es }
  if numCodeBits ≠ 0 ∧ code.length > numCodeBits then .error .runtime
  else if numCodeBits ≠ 0 ∧ code.length < numCodeBits then
    if m.allowPadding = false then .error .runtime
    else if numCodeBits - code.length ≥ m.codeBlockSize then .error .value
    else .ok (code ++ drawBits rng p (numCodeBits - code.length), m',
              p + (numCodeBits - code.length))
  else .ok (code, m', p)

/-- The block loop of decoding. `hermespy/fec/coding.py` 356-362. -/
def decodeBlocks (e : Encoder σ) : Nat → σ → List Bool → Except PyErr (List Bool × σ)
  | 0, s, _ => .ok ([], s)
  | n + 1, s, c => do
    let r := e.dec s (c.take e.L)
    if r.1.length ≠ e.K then .error .value
    let (ds, s2) ← decodeBlocks e n r.2 (c.drop e.L)
    .ok (r.1 ++ ds, s2)

/-- One iteration of the decoder loop. `hermespy/fec/coding.py` 341-362. -/
def decodeStage (e : Encoder σ) (code : List Bool) : Except PyErr (List Bool × Encoder σ) :=
  if !e.enabled then .ok (code, e)
  else if e.L = 0 then .error .zeroDivision
  else do
    let (d, s) ← decodeBlocks e (code.length / e.L) e.st (code.take (code.length / e.L * e.L))
    .ok (d, { e with st := s })

/-- The decoder loop over `reversed(encoders)`: the recursion decodes the tail first.
`hermespy/fec/coding.py` 338-362. -/
def decodeChain : List (Encoder σ) → List Bool → Except PyErr (List Bool × List (Encoder σ))
  | [], code => .ok (code, [])
  | e :: es, code => do
    let (c, es1) ← decodeChain es code
    let (d, e1) ← decodeStage e c
    .ok (d, e1 :: es1)

/-- `EncoderManager.decode` with the internal state after the call.
`hermespy/fec/coding.py` 299-365. -/
def Manager.decodeS (m : Manager σ) (code : List Bool) (numDataBits : Option Nat) :
    Except PyErr (List Bool × Manager σ) := do
  let bbs ← m.bitBlockSize
  if m.codeBlockSize = 0 then .error .zeroDivision
  let numBlocks := code.length / m.codeBlockSize
  let full := numBlocks * bbs
  let n ← match numDataBits with
    | some n =>
      if n > full then .error .runtime
      else if m.allowTruncating = false ∧ n ≠ full then .error .runtime
      else .ok n
    | none => .ok full
  let (d, es) ← decodeChain m.encoders code
  .ok (d.take n, { m with encoders := es })

/-- The bits returned by `EncoderManager.decode`. -/
def Manager.decode (m : Manager σ) (code : List Bool) (numDataBits : Option Nat) :
    Except PyErr (List Bool) := do
  let r ← m.decodeS code numDataBits
  .ok r.1

/-- `EncoderManager.required_num_data_bits`. `hermespy/fec/coding.py` 442-452. -/
def Manager.requiredNumDataBits (m : Manager σ) (numCodeBits : Nat) : Except PyErr Nat := do
  let bbs ← m.bitBlockSize
  if m.codeBlockSize = 0 then .error .zeroDivision
  .ok (bbs * (numCodeBits / m.codeBlockSize))

/-! ## Concrete encoders as seen by the manager -/

/-- A `RepetitionEncoder` object inside a manager (`hermespy/fec/repetition_encoder.py`). -/
def repetitionEncoder (K M : Nat) (st : σ) : Encoder σ where
  K := K
  L := M * K
  enabled := true
  enc := fun s b => (repetitionEncode M b, s)
  dec := fun s c => ((repetitionDecode K M c).toOption.getD [], s)
  st := st

/-- A `BlockInterleaver` object inside a manager (`hermespy/fec/block_interleaver.py`). -/
def interleaverEncoder (N M : Nat) (st : σ) : Encoder σ where
  K := N
  L := N
  enabled := true
  enc := fun s b => ((interleaverEncode M b).toOption.getD [], s)
  dec := fun s c => ((interleaverDecode M c).toOption.getD [], s)
  st := st

/-- A `Scrambler3GPP` object inside a manager (`hermespy/fec/scrambler.py` 129-175). -/
def scramblerEncoder (s : Scrambler3GPP) : Encoder Scrambler3GPP where
  K := 1
  L := 1
  enabled := true
  enc := fun s b => s.encode b
  dec := fun s c => s.decode c
  st := s

end Verif.Fec
