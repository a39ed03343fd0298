import Mathlib.Tactic.Linarith
import Verif.Np

/-!
# Bit sources and frame generators

`hermespy/modem/bits_source.py` (`StreamBitsSource`), `hermespy/modem/frame_generator/frame_generator.py`
(`FrameGeneratorStub`) and `hermespy/modem/frame_generator/scapy.py` (`FrameGeneratorScapy`).

Simplifications: bits are Booleans and bytes natural numbers below 256; `num_bits / 8` is computed exactly
(Python divides floats, exact below `2^53`); a file does not change while it is read.
-/

namespace Verif.Modem.Sources

open Verif (PyErr)

/-! ### `np.packbits` and `np.unpackbits`, most significant bit first -/

/-- The value of eight bits, most significant first; missing bits are zero (`np.packbits`). -/
def packByte (bits : List Bool) : Nat :=
  (List.range 8).foldl (fun acc i => 2 * acc + (bits.getD i false).toNat) 0

/-- The eight bits of a byte, most significant first (`np.unpackbits`). -/
def unpackByte (b : Nat) : List Bool := (List.range 8).map fun i => b.testBit (7 - i)

/-- `np.packbits`. -/
def packbits (bits : List Bool) : List Nat :=
  (List.range ((bits.length + 7) / 8)).map fun i => packByte ((bits.drop (8 * i)).take 8)

/-- `np.unpackbits`. -/
def unpackbits (bytes : List Nat) : List Bool := bytes.flatMap unpackByte

theorem unpackByte_length (b : Nat) : (unpackByte b).length = 8 := by simp [unpackByte]

theorem unpackbits_length (bytes : List Nat) : (unpackbits bytes).length = 8 * bytes.length := by
  induction bytes with
  | nil => rfl
  | cons b bs ih =>
    simp only [unpackbits, List.flatMap_cons, List.length_append, unpackByte_length, List.length_cons] at ih ⊢
    omega

theorem unpackbits_append (a b : List Nat) : unpackbits (a ++ b) = unpackbits a ++ unpackbits b := by
  simp [unpackbits]

/-- Eight bits survive. -/
theorem byte_roundtrip8 (a b c d e f g h : Bool) :
    unpackByte (packByte [a, b, c, d, e, f, g, h]) = [a, b, c, d, e, f, g, h] := by
  cases a <;> cases b <;> cases c <;> cases d <;> cases e <;> cases f <;> cases g <;> cases h <;> decide

theorem packByte_pad (bits : List Bool) (k : Nat) :
    packByte (bits ++ List.replicate k false) = packByte bits := by
  have : ∀ i : Nat, (bits ++ List.replicate k false).getD i false = bits.getD i false := by
    intro i
    simp only [List.getD_eq_getElem?_getD]
    by_cases h : i < bits.length
    · rw [List.getElem?_append_left h]
    · rw [List.getElem?_append_right (by omega), List.getElem?_replicate,
        List.getElem?_eq_none (by omega : bits.length ≤ i)]
      split <;> rfl
  unfold packByte
  simp only [this]

/-- At most eight bits survive, followed by zeros. -/
theorem byte_roundtrip (bits : List Bool) (h : bits.length ≤ 8) :
    unpackByte (packByte bits) = bits ++ List.replicate (8 - bits.length) false := by
  rw [← packByte_pad bits (8 - bits.length)]
  have hl : (bits ++ List.replicate (8 - bits.length) false).length = 8 := by
    simp only [List.length_append, List.length_replicate]
    omega
  generalize bits ++ List.replicate (8 - bits.length) false = l at hl
  match l, hl with
  | [a, b, c, d, e, f, g, i], _ => exact byte_roundtrip8 a b c d e f g i

theorem packbits_cons (bits : List Bool) (h : bits ≠ []) :
    packbits bits = packByte (bits.take 8) :: packbits (bits.drop 8) := by
  have hp : 0 < bits.length := List.length_pos_iff.2 h
  unfold packbits
  have : (bits.length + 7) / 8 = ((bits.drop 8).length + 7) / 8 + 1 := by
    simp only [List.length_drop]
    omega
  rw [this, List.range_succ_eq_map, List.map_cons, List.map_map]
  congr 1
  apply List.map_congr_left
  intro i _
  simp only [Function.comp, List.drop_drop]
  rw [show 8 * (i + 1) = 8 + 8 * i by omega]

/-- Bits survive packing, padded with zeros to whole bytes. -/
theorem unpack_pack : ∀ (n : Nat) (bits : List Bool), bits.length ≤ n →
    unpackbits (packbits bits) = bits ++ List.replicate (8 * ((bits.length + 7) / 8) - bits.length) false := by
  intro n
  induction n with
  | zero =>
    intro bits h
    have : bits = [] := List.length_eq_zero_iff.1 (by omega)
    subst this
    rfl
  | succ n ih =>
    intro bits h
    by_cases hb : bits = []
    · subst hb; rfl
    rw [packbits_cons bits hb]
    show unpackByte (packByte (bits.take 8)) ++ unpackbits (packbits (bits.drop 8)) = _
    have hp : 0 < bits.length := List.length_pos_iff.2 hb
    rw [ih (bits.drop 8) (by simp only [List.length_drop]; omega), byte_roundtrip _ (by simp)]
    by_cases h8 : 8 ≤ bits.length
    · have : (bits.take 8).length = 8 := by simp; omega
      rw [this]
      simp only [Nat.sub_self, List.replicate_zero, List.append_nil]
      rw [← List.append_assoc, List.take_append_drop]
      congr 2
      simp only [List.length_drop]
      omega
    · rw [List.take_of_length_le (by omega), List.drop_eq_nil_of_le (by omega)]
      simp only [List.length_nil, List.nil_append, List.append_nil]
      have e : 8 * ((0 + 7) / 8) - 0 = 0 := by norm_num
      rw [e, List.replicate_zero, List.append_nil]
      congr 2
      omega

/-- Bits of whole bytes survive packing. -/
theorem unpack_pack_whole (bits : List Bool) (h : 8 ∣ bits.length) : unpackbits (packbits bits) = bits := by
  rw [unpack_pack _ bits (le_refl _)]
  obtain ⟨k, hk⟩ := h
  have : 8 * ((bits.length + 7) / 8) - bits.length = 0 := by omega
  rw [this, List.replicate_zero, List.append_nil]

/-! ### Stream bit sources -/

/-- A `StreamBitsSource`: the bytes of the opened file and the position of the reader,
`modem/bits_source.py` 76-89. -/
structure Stream where
  /-- content of the file -/
  file : List Nat
  /-- bytes already read -/
  pos : Nat

/-- `BufferedReader.read(n)` of the Python library: at most `n` bytes from the position on, everything for
`-1`, `ValueError` for smaller numbers. -/
def read (s : Stream) (n : Int) : Except PyErr (List Nat) × Stream :=
  if n < -1 then (.error .value, s)
  else
    let rest := s.file.drop s.pos
    let out := if n = -1 then rest else rest.take n.toNat
    (.ok out, { s with pos := s.pos + out.length })

/-- `StreamBitsSource.generate_bits`, `modem/bits_source.py` 94-105. -/
def generate (s : Stream) (numBits : Int) : Except PyErr (List Bool) × Stream :=
  let numBytes := -((-numBits) / 8)
  let overflow := numBytes * 8 - numBits
  if overflow > 0 then (.error .runtime, s)
  else
    match read s numBytes with
    | (.error e, s') => (.error e, s')
    | (.ok bytes, s') => (.ok (unpackbits bytes), s')

/-- A history of requests: what each of them returned. -/
def requests (s : Stream) : List Nat → List (Except PyErr (List Bool)) × Stream
  | [] => ([], s)
  | n :: ns =>
    let (r, s') := generate s n
    let (rs, t) := requests s' ns
    (r :: rs, t)

/-- `StreamBitsSource.serialize` / `Deserialize`, `modem/bits_source.py` 107-114: only the path is stored and
the file is opened anew. -/
def restored (s : Stream) : Stream := { file := s.file, pos := 0 }

/-- The delivered bits of a request, nothing for an exception. -/
def delivered : Except PyErr (List Bool) → List Bool
  | .ok b => b
  | .error _ => []

theorem generate_whole (s : Stream) (k : Nat) : generate s ((8 * k : Nat) : Int) =
    (.ok (unpackbits ((s.file.drop s.pos).take k)),
      { s with pos := s.pos + ((s.file.drop s.pos).take k).length }) := by
  have h1 : -((-((8 * k : Nat) : Int)) / 8) = (k : Int) := by omega
  unfold generate
  simp only [h1]
  rw [if_neg (by push_cast; omega)]
  unfold read
  rw [if_neg (by omega)]
  simp only
  rw [if_neg (by omega)]
  simp

theorem generate_broken (s : Stream) (n : Nat) (h : ¬ 8 ∣ n) : generate s (n : Int) = (.error .runtime, s) := by
  unfold generate
  simp only
  rw [if_pos (by omega)]

/-- C68: over every history of requests, refused ones included, the bits delivered, one request after the
other, are the bits of the file from its beginning on: none is skipped, repeated or reordered. -/
theorem C68_stream (file : List Nat) (ns : List Nat) :
    ((requests ⟨file, 0⟩ ns).1.flatMap delivered) =
      unpackbits (file.take ((ns.filter fun n => n % 8 = 0).map (· / 8)).sum) := by
  suffices h : ∀ (ns : List Nat) (p : Nat), p ≤ file.length →
      ((requests ⟨file, p⟩ ns).1.flatMap delivered) =
        unpackbits ((file.drop p).take ((ns.filter fun n => n % 8 = 0).map (· / 8)).sum) by
    simpa using h ns 0 (Nat.zero_le _)
  intro ns
  induction ns with
  | nil => intro p _; rfl
  | cons n ns ih =>
    intro p hp
    by_cases h8 : n % 8 = 0
    · obtain ⟨k, rfl⟩ : ∃ k, n = 8 * k := ⟨n / 8, by omega⟩
      have hf : ((8 * k :: ns).filter fun n => n % 8 = 0) = 8 * k :: ns.filter fun n => n % 8 = 0 := by
        simp
      rw [hf, List.map_cons, List.sum_cons, Nat.mul_div_cancel_left _ (by norm_num : 0 < 8)]
      unfold requests
      rw [generate_whole]
      simp only [List.flatMap_cons, delivered]
      rw [ih _ (by simp only [List.length_take, List.length_drop]; omega), ← unpackbits_append]
      congr 1
      rw [List.take_add]
      congr 1
      simp only [List.length_take, List.length_drop, List.drop_drop]
      by_cases hk : k ≤ file.length - p
      · rw [Nat.min_eq_left hk]
      · rw [Nat.min_eq_right (by omega), List.drop_eq_nil_of_le (by omega), List.drop_eq_nil_of_le (by omega)]
    · have hf : ((n :: ns).filter fun n => n % 8 = 0) = ns.filter fun n => n % 8 = 0 := by simp [h8]
      rw [hf]
      unfold requests
      rw [generate_broken _ _ (by omega)]
      simp only [List.flatMap_cons, delivered, List.nil_append]
      exact ih p hp

/-- C68, the part that holds: a request for whole bytes is answered with exactly the requested number of bits
while the file lasts.  Missing: numbers of bits which are not multiples of eight, and the end of the
file. -/
theorem C68_exact_partial (file : List Nat) (ns : List Nat) (n : Nat) (h8 : 8 ∣ n)
    (hs : ((ns.filter fun n => n % 8 = 0).map (· / 8)).sum + n / 8 ≤ file.length) :
    ∃ bits, (generate (requests ⟨file, 0⟩ ns).2 n).1 = .ok bits ∧ bits.length = n := by
  suffices h : ∀ (ns : List Nat) (p : Nat),
      p + ((ns.filter fun n => n % 8 = 0).map (· / 8)).sum + n / 8 ≤ file.length →
      ∃ bits, (generate (requests ⟨file, p⟩ ns).2 n).1 = .ok bits ∧ bits.length = n by
    exact h ns 0 (by omega)
  intro ns
  induction ns with
  | nil =>
    intro p hp
    obtain ⟨k, rfl⟩ := h8
    rw [show (requests ⟨file, p⟩ []).2 = ⟨file, p⟩ from rfl, generate_whole]
    refine ⟨_, rfl, ?_⟩
    rw [unpackbits_length]
    simp only [List.filter_nil, List.map_nil, List.sum_nil] at hp
    simp only [List.length_take, List.length_drop]
    rw [Nat.min_eq_left (by omega)]
  | cons m ns ih =>
    intro p hp
    by_cases hm : m % 8 = 0
    · obtain ⟨k, rfl⟩ : ∃ k, m = 8 * k := ⟨m / 8, by omega⟩
      have hf : ((8 * k :: ns).filter fun n => n % 8 = 0) = 8 * k :: ns.filter fun n => n % 8 = 0 := by
        simp
      rw [hf, List.map_cons, List.sum_cons, Nat.mul_div_cancel_left _ (by norm_num : 0 < 8)] at hp
      unfold requests
      rw [generate_whole]
      simp only
      apply ih
      simp only [List.length_take, List.length_drop]
      omega
    · have hf : ((m :: ns).filter fun n => n % 8 = 0) = ns.filter fun n => n % 8 = 0 := by simp [hm]
      rw [hf] at hp
      unfold requests
      rw [generate_broken ⟨file, p⟩ m (by omega)]
      simp only
      exact ih p hp

/-- C68 fails at the end of the file: fewer bits than requested are returned, without an exception. -/
theorem C68_end_fails (file : List Nat) (n : Nat) (h8 : 8 ∣ n) (h : 8 * file.length < n) :
    ∃ bits, (generate ⟨file, 0⟩ n).1 = .ok bits ∧ bits.length < n := by
  obtain ⟨k, rfl⟩ := h8
  rw [generate_whole]
  refine ⟨_, rfl, ?_⟩
  rw [unpackbits_length]
  simp only [List.drop_zero, List.length_take]
  omega

/-- C68 fails for numbers of bits which do not fill whole bytes: every such request raises, however long
the file. -/
theorem C68_bits_fails (s : Stream) (n : Nat) (h : ¬ 8 ∣ n) : generate s (n : Int) = (.error .runtime, s) :=
  generate_broken s n h

/-- C68 fails for stored sources: a source restored after bytes have been read delivers them again. -/
theorem C68_restore_fails : ∃ (s : Stream) (n : Nat),
    (generate (restored (generate s n).2) n).1 ≠ (generate (generate s n).2 n).1 ∧
    (generate (restored (generate s n).2) n).1 = (generate s n).1 := by
  refine ⟨⟨[1, 2], 0⟩, 8, ?_, ?_⟩
  · rw [show ((8 : Nat) : Int) = ((8 * 1 : Nat) : Int) from rfl, generate_whole, generate_whole, restored,
      generate_whole]
    intro h
    have h' := Except.ok.inj h
    revert h'
    decide
  · rw [show ((8 : Nat) : Int) = ((8 * 1 : Nat) : Int) from rfl, generate_whole, restored, generate_whole]

example : ((requests ⟨[170, 15, 3], 0⟩ [8, 5, 8]).1.flatMap delivered) =
    [true, false, true, false, true, false, true, false, false, false, false, false, true, true, true, true] := by
  rw [C68_stream]
  decide

example : 8 ∣ 16 ∧ (([8, 5].filter fun n => n % 8 = 0).map (· / 8)).sum + 16 / 8 ≤ [170, 15, 3].length := by
  decide

/-! ### Frame generators -/

/-- A bit source: any function from the number of requested bits to bits or an exception. -/
abbrev Source := Nat → Except PyErr (List Bool)

/-- `FrameGeneratorStub.pack_frame`, `modem/frame_generator/frame_generator.py` 55-58. -/
def stubPack (src : Source) (numBits : Nat) : Except PyErr (List Bool) := src numBits

/-- `FrameGeneratorStub.unpack_frame`, `modem/frame_generator/frame_generator.py` 60-63. -/
def stubUnpack (frame : List Bool) : List Bool := frame

/-- A Scapy packet header as used by `FrameGeneratorScapy`.  `head p` are the header bytes Scapy builds in
front of the payload `p` (length and checksum fields depend on it) for the packet the user configured, and
`fresh p` those of `packet_type()`, the first layer with default fields.  Simplification: a header is
built in front of its payload and nothing behind it. -/
structure Packet where
  /-- header of the configured packet -/
  head : List Nat → List Nat
  /-- header of a new packet of the type of the first layer -/
  fresh : List Nat → List Nat

/-- `packet_num_bits`, `modem/frame_generator/scapy.py` 36: `len(packet)` of the packet without payload. -/
def Packet.numBits (p : Packet) : Nat := (p.head []).length * 8

/-- `FrameGeneratorScapy.pack_frame`, `modem/frame_generator/scapy.py` 39-59. -/
def scapyPack (p : Packet) (src : Source) (numBits : Nat) : Except PyErr (List Bool) :=
  if numBits < p.numBits then .error .value
  else
    match src (numBits - p.numBits) with
    | .error e => .error e
    | .ok bits =>
      let payload := packbits bits
      .ok (unpackbits (p.fresh payload ++ payload))

/-- `FrameGeneratorScapy.unpack_frame`, `modem/frame_generator/scapy.py` 61-66. -/
def scapyUnpack (p : Packet) (frame : List Bool) : Except PyErr (List Bool) :=
  if frame.length < p.numBits then .error .value else .ok (frame.drop p.numBits)

/-- C67: the placeholder generator hands the bits of the source through, both ways. -/
theorem C67_stub (src : Source) (n : Nat) :
    (stubPack src n).map stubUnpack = src n := by
  unfold stubPack
  cases src n <;> rfl

/-- C67: a request that does not even hold the header raises `ValueError` and leaves the source alone;
an unpacked frame has to hold a header, too. -/
theorem C67_short (p : Packet) (src : Source) (n : Nat) (frame : List Bool)
    (h : n < 8 * (p.head []).length) (hf : frame.length < 8 * (p.head []).length) :
    scapyPack p src n = .error .value ∧ scapyUnpack p frame = .error .value := by
  constructor
  · unfold scapyPack Packet.numBits
    rw [if_pos (by omega)]
  · unfold scapyUnpack Packet.numBits
    rw [if_pos (by omega)]

/-- C67, the part that holds: for a packet of a single layer with default fields, whose header does not change
its size, and a payload of whole bytes, the frame has the requested number of bits, it starts with the
header of the packet around that payload, and unpacking returns exactly the payload.  Missing: packets with
several layers or assigned fields, and payloads that do not fill whole bytes. -/
theorem C67_scapy_partial (p : Packet) (src : Source) (n : Nat) (bits : List Bool)
    (hfresh : ∀ pl, p.fresh pl = p.head pl) (hlen : ∀ pl, (p.head pl).length = (p.head []).length)
    (hn : 8 * (p.head []).length ≤ n) (h8 : 8 ∣ n)
    (hsrc : src (n - 8 * (p.head []).length) = .ok bits) (hbits : bits.length = n - 8 * (p.head []).length) :
    ∃ frame, scapyPack p src n = .ok frame ∧ frame.length = n ∧
      frame.take (8 * (p.head []).length) = unpackbits (p.head (packbits bits)) ∧
      scapyUnpack p frame = .ok bits := by
  have h8' : 8 ∣ bits.length := by rw [hbits]; omega
  refine ⟨unpackbits (p.fresh (packbits bits) ++ packbits bits), ?_, ?_, ?_, ?_⟩
  · unfold scapyPack Packet.numBits
    rw [if_neg (by omega), Nat.mul_comm _ 8, hsrc]
  · rw [unpackbits_append, List.length_append, unpack_pack_whole bits h8', unpackbits_length, hfresh, hlen]
    omega
  · rw [unpackbits_append, hfresh, List.take_left' (by rw [unpackbits_length, hlen])]
  · unfold scapyUnpack Packet.numBits
    rw [unpackbits_append, unpack_pack_whole bits h8', hfresh, if_neg (by
      rw [List.length_append, unpackbits_length, hlen]; omega)]
    rw [List.drop_left' (by rw [unpackbits_length, hlen]; omega)]

/-- C67 fails for assigned fields: whatever the user configured is replaced by the defaults, since the frame
does not depend on the configured header beyond its length. -/
theorem C67_fields_fails (p q : Packet) (src : Source) (n : Nat)
    (hfresh : p.fresh = q.fresh) (hlen : (p.head []).length = (q.head []).length) :
    scapyPack p src n = scapyPack q src n := by
  unfold scapyPack Packet.numBits
  rw [hlen, hfresh]

/-- Two packets which differ in an assigned field only: both generate the frame of the default field. -/
example : ∃ p q : Packet, p.head [] ≠ q.head [] ∧ p.fresh = q.fresh ∧
    (p.head []).length = (q.head []).length ∧
    scapyPack q (fun n => .ok (List.replicate n true)) 16 =
      .ok (unpackbits [0, 255]) ∧ q.head [255] = [7] := by
  refine ⟨⟨fun _ => [0], fun _ => [0]⟩, ⟨fun _ => [7], fun _ => [0]⟩, by decide, rfl, rfl, ?_, rfl⟩
  rfl

/-- C67 fails for payloads which do not fill whole bytes: the frame is longer than requested, and zeros are
unpacked behind the payload. -/
theorem C67_bytes_fails (p : Packet) (src : Source) (n : Nat) (bits : List Bool)
    (hfresh : ∀ pl, p.fresh pl = p.head pl) (hlen : ∀ pl, (p.head pl).length = (p.head []).length)
    (hn : 8 * (p.head []).length ≤ n) (h8 : ¬ 8 ∣ n)
    (hsrc : src (n - 8 * (p.head []).length) = .ok bits) (hbits : bits.length = n - 8 * (p.head []).length) :
    ∃ frame, scapyPack p src n = .ok frame ∧ n < frame.length ∧
      ∃ k, 0 < k ∧ scapyUnpack p frame = .ok (bits ++ List.replicate k false) := by
  have hk : 0 < 8 * ((bits.length + 7) / 8) - bits.length := by rw [hbits]; omega
  refine ⟨unpackbits (p.fresh (packbits bits) ++ packbits bits), ?_, ?_,
    8 * ((bits.length + 7) / 8) - bits.length, hk, ?_⟩
  · unfold scapyPack Packet.numBits
    rw [if_neg (by omega), Nat.mul_comm _ 8, hsrc]
  · rw [unpackbits_append, List.length_append, unpack_pack _ bits (le_refl _), unpackbits_length, hfresh, hlen,
      List.length_append, List.length_replicate]
    omega
  · unfold scapyUnpack Packet.numBits
    rw [unpackbits_append, unpack_pack _ bits (le_refl _), hfresh, if_neg (by
      rw [List.length_append, unpackbits_length, hlen]; omega)]
    rw [List.drop_left' (by rw [unpackbits_length, hlen]; omega)]

/-- C67 fails for packets of several layers: the frame carries the first layer only, so that unpacking cuts
payload away. -/
theorem C67_layers_fails : ∃ (p : Packet) (src : Source) (n : Nat),
    (∀ pl, ∃ rest, p.head pl = p.fresh (rest ++ pl) ++ rest) ∧
    src (n - 8 * (p.head []).length) = .ok (unpackbits [5, 6]) ∧
    ∃ frame, scapyPack p src n = .ok frame ∧ frame.length ≠ n ∧
      scapyUnpack p frame = .ok (unpackbits [6]) := by
  refine ⟨⟨fun _ => [1, 2], fun _ => [1]⟩, fun _ => .ok (unpackbits [5, 6]), 32, ?_, rfl, ?_⟩
  · intro pl
    exact ⟨[2], rfl⟩
  · refine ⟨unpackbits [1, 5, 6], ?_, by decide, ?_⟩
    · rfl
    · rfl

/-- A two-byte header around a length field, 32 bits per frame. -/
example : ∃ (p : Packet) (src : Source) (bits : List Bool),
    (∀ pl, p.fresh pl = p.head pl) ∧ (∀ pl, (p.head pl).length = (p.head []).length) ∧
    8 * (p.head []).length ≤ 32 ∧ 8 ∣ 32 ∧ src (32 - 8 * (p.head []).length) = .ok bits ∧
    bits.length = 32 - 8 * (p.head []).length := by
  refine ⟨⟨fun pl => [1, pl.length], fun pl => [1, pl.length]⟩, fun n => .ok (List.replicate n true),
    List.replicate 16 true, fun _ => rfl, fun _ => rfl, by decide, by decide, rfl, rfl⟩

end Verif.Modem.Sources
