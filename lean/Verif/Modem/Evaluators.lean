import Verif.Np
import Mathlib.Data.Rat.Defs
import Mathlib.Algebra.Order.Field.Basic
import Mathlib.Tactic.FieldSimp

/-!
# Communication evaluators

`hermespy/modem/evaluators.py`: bit, block and frame error indicators and the data throughput.
-/

namespace Verif.Modem

/-- `CommunicationTransmissionFrame` (`modem/modem.py` 52-130), the attributes the evaluators read. -/
structure TxFrame where
  bits : List Bool
  blockSize : Nat
  deriving DecidableEq, Repr

/-- `CommunicationReceptionFrame` (`modem/modem.py` 245-318), the attributes the evaluators read:
`decoded_bits`, `bit_block_size` and `signal.duration`. -/
structure RxFrame where
  bits : List Bool
  blockSize : Nat
  duration : ℚ
  deriving DecidableEq, Repr

/-- `CommunicationTransmission.bits`, `modem/modem.py` 203-222: the bits of all frames, copied one
frame after the other (the cast of 0/1 values to `uint8` is the identity). -/
def txBits (frames : List TxFrame) : List Bool := frames.flatMap (·.bits)

/-- `CommunicationReception.bits`, `modem/modem.py` 440-460. -/
def rxBits (frames : List RxFrame) : List Bool := frames.flatMap (·.bits)

/-- `astype(np.int8)` of a bit. -/
def bitInt (b : Bool) : Int := if b then 1 else 0

/-- `BitErrorEvaluator.evaluate`, `modem/evaluators.py` 239-258. -/
def bitErrors (tx : List TxFrame) (rx : List RxFrame) : List Int :=
  let transmitted := (txBits tx).map bitInt
  let received := (rxBits rx).map bitInt
  let numBits := max received.length transmitted.length
  let paddedTransmission := transmitted ++ List.replicate (numBits - transmitted.length) 0
  let paddedReception := received ++ List.replicate (numBits - received.length) 0
  List.zipWith (fun a b => |a - b|) paddedTransmission paddedReception

/-- `np.mean` of an integer or boolean array; `none` is the `nan` of an empty array. -/
def mean (l : List Int) : Option ℚ :=
  if l.length = 0 then none else some ((l.sum : ℚ) / l.length)

/-- `bits.reshape((-1, B))`: the rows, `ValueError` unless `B` divides the number of bits. -/
def blocks (bits : List Bool) (B : Nat) : Except PyErr (List (List Bool)) :=
  if B = 0 then .error .value
  else if bits.length % B = 0 then
    .ok ((List.range (bits.length / B)).map fun i => (bits.drop (i * B)).take B)
  else .error .value

/-- Length of one axis after numpy broadcasting; `none` if the lengths do not fit. -/
def bcast (m n : Nat) : Option Nat :=
  if m = n then some m else if m = 1 then some n else if n = 1 then some m else none

/-- Index into an axis of length `m` that is broadcast: a single entry serves every index. -/
def bidx (m i : Nat) : Nat := if m = 1 then 0 else i

/-- `np.any(tx_blocks != rx_blocks, axis=1)` of two matrices with `B1`, `B2` columns.
Shapes that cannot be broadcast raise `ValueError`. -/
def rowsDiffer (t r : List (List Bool)) (B1 B2 : Nat) : Except PyErr (List Bool) :=
  match bcast t.length r.length, bcast B1 B2 with
  | some m, some B => .ok ((List.range m).map fun k =>
      (List.range B).any fun i =>
        decide (((t[bidx t.length k]?).getD [])[bidx B1 i]? ≠
          ((r[bidx r.length k]?).getD [])[bidx B2 i]?))
  | _, _ => .error .value

/-- `a[b : b + n] = v` of a one-dimensional array: the section is clipped at the end of the array, `v`
must have the length of the section, or a single entry, otherwise `ValueError`. -/
def assignSlice {α : Type} (a : List α) (b n : Nat) (v : List α) : Except PyErr (List α) :=
  let len := min a.length (b + n) - min a.length b
  if v.length = len then .ok (a.take b ++ v ++ a.drop (b + len))
  else match v with
    | [x] => .ok (a.take b ++ List.replicate len x ++ a.drop (b + len))
    | _ => .error .value

/-- The loop of `BlockErrorEvaluator.evaluate`, `modem/evaluators.py` 315-323. -/
def blockLoop : List (TxFrame × RxFrame) → Nat → List Bool → Except PyErr (List Bool)
  | [], _, errors => .ok errors
  | (t, r) :: rest, b, errors => do
    let tb ← blocks t.bits t.blockSize
    let rb ← blocks r.bits r.blockSize
    let n := max tb.length rb.length
    let d ← rowsDiffer tb rb t.blockSize r.blockSize
    let errors ← assignSlice errors b n d
    blockLoop rest (b + n) errors

/-- `sum(bits.size // bit_block_size)`; `ZeroDivisionError` for block size zero. -/
def countBlocks : List (List Bool × Nat) → Except PyErr Nat
  | [] => .ok 0
  | (bits, B) :: rest =>
    if B = 0 then .error .zeroDivision
    else do
      let n ← countBlocks rest
      .ok (bits.length / B + n)

/-- `BlockErrorEvaluator.evaluate`, `modem/evaluators.py` 302-325. -/
def blockErrors (tx : List TxFrame) (rx : List RxFrame) : Except PyErr (List Bool) := do
  let nt ← countBlocks (tx.map fun f => (f.bits, f.blockSize))
  let nr ← countBlocks (rx.map fun f => (f.bits, f.blockSize))
  blockLoop (tx.zip rx) 0 (List.replicate (max nt nr) true)

/-- `np.array_equiv` of two vectors: equal after broadcasting. -/
def arrayEquiv (a b : List Bool) : Bool :=
  match bcast a.length b.length with
  | none => false
  | some n => (List.range n).all fun i => decide (a[bidx a.length i]? = b[bidx b.length i]?)

/-- `FrameErrorEvaluator.evaluate`, `modem/evaluators.py` 369-382. -/
def frameErrors (tx : List TxFrame) (rx : List RxFrame) : List Bool :=
  let matched := List.zipWith (fun t r => !arrayEquiv t.bits r.bits) tx rx
  matched ++ List.replicate (max tx.length rx.length - matched.length) true

/-- `ThroughputEvaluation.__init__`, `modem/evaluators.py` 406-431. -/
def throughputOf (bitsPerFrame : Nat) (frameDuration : ℚ) (errors : List Bool) : ℚ :=
  if errors.length < 1 ∨ frameDuration ≤ 0 then 0
  else ((errors.filter (!·)).length : ℚ) * bitsPerFrame / (errors.length * frameDuration)

/-- `ThroughputEvaluator.evaluate`, `modem/evaluators.py` 487-500; `signalDuration` is the duration of the
received signal, used when no frame was detected. -/
def throughput (tx : List TxFrame) (rx : List RxFrame) (signalDuration : ℚ) : ℚ :=
  match rx with
  | [] => throughputOf 0 signalDuration (frameErrors tx rx)
  | f :: _ => throughputOf f.bits.length f.duration (frameErrors tx rx)

/-! ### C52, bits -/

theorem getElem?_pad (l : List Int) (n i : Nat) (hi : i < n) (hn : l.length ≤ n) :
    (l ++ List.replicate (n - l.length) (0 : Int))[i]? = some (l[i]?.getD 0) := by
  by_cases h : i < l.length
  · rw [List.getElem?_append_left h]
    simp [List.getElem?_eq_getElem h]
  · rw [List.getElem?_append_right (by omega), List.getElem?_replicate, if_pos (by omega),
      List.getElem?_eq_none (by omega)]
    rfl

/-- C52, bit errors: the evaluation has one entry per transmitted or received bit. An entry is one or
zero; where both sides have a bit it is one iff the bits differ; where one side has no bit, it is one
iff the other side's bit is set. (The property asks for one at every missing bit.) -/
theorem C52_bits_partial (tx : List TxFrame) (rx : List RxFrame) :
    (bitErrors tx rx).length = max (txBits tx).length (rxBits rx).length ∧
    (∀ (i : Nat) (a b : Bool), (txBits tx)[i]? = some a → (rxBits rx)[i]? = some b →
      (bitErrors tx rx)[i]? = some (if a = b then 0 else 1)) ∧
    (∀ (i : Nat) (a : Bool), (txBits tx)[i]? = some a → (rxBits rx)[i]? = none →
      (bitErrors tx rx)[i]? = some (if a then 1 else 0)) ∧
    (∀ (i : Nat) (b : Bool), (txBits tx)[i]? = none → (rxBits rx)[i]? = some b →
      (bitErrors tx rx)[i]? = some (if b then 1 else 0)) := by
  have key : ∀ i : Nat, i < max (rxBits rx).length (txBits tx).length →
      (bitErrors tx rx)[i]? =
        some (|(((txBits tx).map bitInt)[i]?.getD 0) - (((rxBits rx).map bitInt)[i]?.getD 0)|) := by
    intro i hi
    have h1 := getElem?_pad ((txBits tx).map bitInt) (max (rxBits rx).length (txBits tx).length) i hi
      (by simp)
    have h2 := getElem?_pad ((rxBits rx).map bitInt) (max (rxBits rx).length (txBits tx).length) i hi
      (by simp)
    simp only [List.length_map] at h1 h2
    simp only [bitErrors, List.getElem?_zipWith, List.length_map, h1, h2]
  refine ⟨?_, ?_, ?_, ?_⟩
  · simp [bitErrors]; omega
  · intro i a b ha hb
    have hi := (List.getElem?_eq_some_iff.mp ha).1
    rw [key i (by omega)]
    cases a <;> cases b <;> simp [ha, hb, bitInt]
  · intro i a ha hb
    have hi := (List.getElem?_eq_some_iff.mp ha).1
    rw [key i (by omega)]
    cases a <;> simp [ha, hb, bitInt]
  · intro i b ha hb
    have hi := (List.getElem?_eq_some_iff.mp hb).1
    rw [key i (by omega)]
    cases b <;> simp [ha, hb, bitInt]

/-- Number of positions at which two sequences differ. -/
def hamming : List Bool → List Bool → Nat
  | a :: as, b :: bs => (if a = b then 0 else 1) + hamming as bs
  | _, _ => 0

/-- C52, bit error rate: if every bit has been received, the artifact is the number of differing bits
divided by the number of bits. -/
theorem C52_bit_error_rate (tx : List TxFrame) (rx : List RxFrame)
    (h : (txBits tx).length = (rxBits rx).length) (hne : 0 < (txBits tx).length) :
    mean (bitErrors tx rx) =
      some ((hamming (txBits tx) (rxBits rx) : ℚ) / ((txBits tx).length : ℚ)) := by
  have hl : (bitErrors tx rx).length = (txBits tx).length := by
    rw [(C52_bits_partial tx rx).1, h, max_self]
  have hs : ∀ a b : List Bool, a.length = b.length →
      (List.zipWith (fun a b : Int => |a - b|) (a.map bitInt) (b.map bitInt)).sum = hamming a b := by
    intro a
    induction a with
    | nil => intro b hb; simp [hamming]
    | cons x a ih =>
      intro b hb
      cases b with
      | nil => simp at hb
      | cons y b =>
        simp only [List.map_cons, List.zipWith_cons_cons, List.sum_cons, hamming]
        rw [ih b (by simpa using hb)]
        cases x <;> cases y <;> simp [bitInt]
  have e : (bitErrors tx rx).sum = hamming (txBits tx) (rxBits rx) := by
    rw [← hs _ _ h]
    simp [bitErrors, h]
  rw [mean, if_neg (by omega), hl, e]
  simp

example : mean (bitErrors [⟨[true, false], 2⟩, ⟨[true, true], 2⟩]
    [⟨[true, true], 2, 1⟩, ⟨[true, true], 2, 1⟩]) = some (1 / 4) := by
  rw [C52_bit_error_rate _ _ rfl (by decide)]; rfl

/-- C52 is false for bits: a transmission of zeros that is lost entirely (no frame detected) has a bit
error rate of zero, whatever its length. -/
theorem C52_lost_bits_fails (n : Nat) (hn : 0 < n) :
    mean (bitErrors [⟨List.replicate n false, n⟩] []) = some 0 := by
  have : bitErrors [⟨List.replicate n false, n⟩] [] = List.replicate n 0 := by
    simp [bitErrors, txBits, rxBits, bitInt, List.zipWith_replicate]
  rw [this, mean, if_neg (by simp; omega)]
  simp

/-! ### C52, blocks -/

/-- The indicator a user expects for two frames of equal size: block `k` is wrong iff one of its bits
differs. -/
def blockWrong (t r : List Bool) (B k : Nat) : Bool :=
  decide (∃ i < B, t[k * B + i]? ≠ r[k * B + i]?)

/-- Two frames with the same number of bits in blocks of the same size. -/
def Aligned (t : TxFrame) (r : RxFrame) : Prop :=
  0 < t.blockSize ∧ r.blockSize = t.blockSize ∧ r.bits.length = t.bits.length ∧
    t.bits.length % t.blockSize = 0

theorem blocks_ok (bits : List Bool) (B : Nat) (hB : 0 < B) (h : bits.length % B = 0) :
    ∃ bl, blocks bits B = .ok bl ∧ bl.length = bits.length / B ∧
      ∀ (k i : Nat), k < bits.length / B → i < B → ((bl[k]?).getD [])[i]? = bits[k * B + i]? := by
  refine ⟨_, by rw [blocks, if_neg (by omega), if_pos h], by simp, ?_⟩
  intro k i hk hi
  rw [List.getElem?_map, List.getElem?_range hk]
  simp [List.getElem?_take_of_lt hi, List.getElem?_drop]

theorem rowsDiffer_aligned (t : TxFrame) (r : RxFrame) (h : Aligned t r) :
    ∃ tb rb, blocks t.bits t.blockSize = .ok tb ∧ blocks r.bits r.blockSize = .ok rb ∧
      tb.length = t.bits.length / t.blockSize ∧ rb.length = t.bits.length / t.blockSize ∧
      rowsDiffer tb rb t.blockSize r.blockSize =
        .ok ((List.range (t.bits.length / t.blockSize)).map
          (blockWrong t.bits r.bits t.blockSize)) := by
  obtain ⟨hB, hb, hl, hm⟩ := h
  obtain ⟨tb, h1, h2, h3⟩ := blocks_ok t.bits t.blockSize hB hm
  obtain ⟨rb, h4, h5, h6⟩ := blocks_ok r.bits t.blockSize hB (by rw [hl]; exact hm)
  refine ⟨tb, rb, h1, by rw [hb]; exact h4, h2, by rw [h5, hl], ?_⟩
  rw [hb]
  have e1 : bcast tb.length rb.length = some (t.bits.length / t.blockSize) := by
    rw [h2, h5, hl]; simp [bcast]
  have e2 : bcast t.blockSize t.blockSize = some t.blockSize := by simp [bcast]
  simp only [rowsDiffer, e1, e2]
  congr 1
  apply List.map_congr_left
  intro k hk
  have hk' := List.mem_range.mp hk
  have ik : ∀ m, m = t.bits.length / t.blockSize → bidx m k = k := by
    intro m hm'
    unfold bidx
    split <;> omega
  rw [ik _ h2, ik _ (by rw [h5, hl])]
  rw [Bool.eq_iff_iff]
  simp only [List.any_eq_true, List.mem_range, blockWrong, decide_eq_true_eq]
  constructor
  · rintro ⟨i, hi, hne⟩
    refine ⟨i, hi, ?_⟩
    have ii : bidx t.blockSize i = i := by unfold bidx; split <;> omega
    rw [ii, h3 k i hk' hi, h6 k i (by rw [hl]; exact hk') hi] at hne
    exact hne
  · rintro ⟨i, hi, hne⟩
    refine ⟨i, hi, ?_⟩
    have ii : bidx t.blockSize i = i := by unfold bidx; split <;> omega
    rw [ii, h3 k i hk' hi, h6 k i (by rw [hl]; exact hk') hi]
    exact hne

/-- Expected block indicators of matched frames. -/
def expectedBlocks (p : TxFrame × RxFrame) : List Bool :=
  (List.range (p.1.bits.length / p.1.blockSize)).map (blockWrong p.1.bits p.2.bits p.1.blockSize)

theorem blockLoop_aligned (l : List (TxFrame × RxFrame)) (h : ∀ p ∈ l, Aligned p.1 p.2)
    (pre post : List Bool) (hp : (l.flatMap expectedBlocks).length ≤ post.length) :
    blockLoop l pre.length (pre ++ post) =
      .ok (pre ++ l.flatMap expectedBlocks ++ post.drop (l.flatMap expectedBlocks).length) := by
  induction l generalizing pre post with
  | nil => simp [blockLoop]
  | cons p l ih =>
    obtain ⟨t, r⟩ := p
    obtain ⟨tb, rb, h1, h2, h3, h4, h5⟩ := rowsDiffer_aligned t r (h (t, r) (by simp))
    have hlen : (expectedBlocks (t, r)).length = t.bits.length / t.blockSize := by
      simp [expectedBlocks]
    simp only [List.flatMap_cons, List.length_append, hlen] at hp
    simp only [blockLoop, h1, h2, bind, Except.bind, h5, h3, h4, max_self]
    have ha : assignSlice (pre ++ post) pre.length (t.bits.length / t.blockSize)
        ((List.range (t.bits.length / t.blockSize)).map (blockWrong t.bits r.bits t.blockSize)) =
        .ok (pre ++ expectedBlocks (t, r) ++ post.drop (t.bits.length / t.blockSize)) := by
      have e : min (pre ++ post).length (pre.length + t.bits.length / t.blockSize) -
          min (pre ++ post).length pre.length = t.bits.length / t.blockSize := by
        simp only [List.length_append]; omega
      simp only [assignSlice, e]
      rw [if_pos (by simp)]
      simp [expectedBlocks]
    rw [ha]
    simp only []
    have e2 : pre.length + t.bits.length / t.blockSize = (pre ++ expectedBlocks (t, r)).length := by
      simp [hlen]
    rw [e2, ih (fun p hp' => h p (by simp [hp'])) _ _ (by simp only [List.length_drop]; omega)]
    simp [hlen, List.drop_drop]

theorem countBlocks_ok (l : List (List Bool × Nat)) (h : ∀ p ∈ l, 0 < p.2) :
    countBlocks l = .ok ((l.map fun p => p.1.length / p.2).sum) := by
  induction l with
  | nil => rfl
  | cons p l ih =>
    obtain ⟨b, B⟩ := p
    have := h (b, B) (by simp)
    simp only [countBlocks]
    rw [if_neg (by simp at this; omega), ih (fun p hp => h p (by simp [hp]))]
    rfl

/-- C52, blocks: if corresponding frames have equal size, block `k` of frame `f` is marked iff one of
its bits differs, and every block of a frame without counterpart is marked. (The property asks for
this without the assumption on the sizes.) -/
theorem C52_blocks_partial (tx : List TxFrame) (rx : List RxFrame)
    (h : ∀ p ∈ tx.zip rx, Aligned p.1 p.2)
    (ht : ∀ f ∈ tx, 0 < f.blockSize) (hr : ∀ f ∈ rx, 0 < f.blockSize) :
    blockErrors tx rx = .ok ((tx.zip rx).flatMap (fun p =>
        (List.range (p.1.bits.length / p.1.blockSize)).map
          (blockWrong p.1.bits p.2.bits p.1.blockSize)) ++
      List.replicate
        (((tx.drop rx.length).map fun f => f.bits.length / f.blockSize).sum +
          ((rx.drop tx.length).map fun f => f.bits.length / f.blockSize).sum) true) := by
  have h1 := countBlocks_ok (tx.map fun f => (f.bits, f.blockSize)) (by
    simp only [List.mem_map, forall_exists_index, and_imp, forall_apply_eq_imp_iff₂]; exact ht)
  have h2 := countBlocks_ok (rx.map fun f => (f.bits, f.blockSize)) (by
    simp only [List.mem_map, forall_exists_index, and_imp, forall_apply_eq_imp_iff₂]; exact hr)
  have hsum : ∀ (tx : List TxFrame) (rx : List RxFrame), (∀ p ∈ tx.zip rx, Aligned p.1 p.2) →
      ((tx.zip rx).flatMap expectedBlocks).length +
        ((tx.drop rx.length).map fun f => f.bits.length / f.blockSize).sum =
        (tx.map fun f => f.bits.length / f.blockSize).sum ∧
      ((tx.zip rx).flatMap expectedBlocks).length +
        ((rx.drop tx.length).map fun f => f.bits.length / f.blockSize).sum =
        (rx.map fun f => f.bits.length / f.blockSize).sum := by
    intro tx
    induction tx with
    | nil => intro rx _; simp
    | cons t tx ih =>
      intro rx hz
      cases rx with
      | nil => simp
      | cons r rx =>
        obtain ⟨i1, i2⟩ := ih rx (fun p hp => hz p (by simp [hp]))
        obtain ⟨_, hb, hl, _⟩ := hz (t, r) (by simp)
        simp only at hb hl
        have he : (expectedBlocks (t, r)).length = t.bits.length / t.blockSize := by
          simp [expectedBlocks]
        simp only [List.zip_cons_cons, List.flatMap_cons, List.length_append, List.length_cons,
          List.drop_succ_cons, List.map_cons, List.sum_cons, he, hb, hl]
        omega
  obtain ⟨s1, s2⟩ := hsum tx rx h
  have hd : (tx.drop rx.length).length = 0 ∨ (rx.drop tx.length).length = 0 := by
    simp only [List.length_drop]; omega
  simp only [blockErrors, h1, h2, bind, Except.bind, List.map_map, Function.comp_def]
  have := blockLoop_aligned (tx.zip rx) h [] (List.replicate
    (max (tx.map fun f => f.bits.length / f.blockSize).sum
      (rx.map fun f => f.bits.length / f.blockSize).sum) true) (by
      simp only [List.length_replicate]; omega)
  simp only [List.length_nil, List.nil_append] at this
  rw [this]
  congr 2
  rw [List.drop_replicate]
  congr 1
  rcases hd with hd | hd
  · rw [List.length_eq_zero_iff.mp hd] at s1 ⊢
    simp only [List.map_nil, List.sum_nil] at s1 ⊢
    omega
  · rw [List.length_eq_zero_iff.mp hd] at s2 ⊢
    simp only [List.map_nil, List.sum_nil] at s2 ⊢
    omega

example : blockErrors [⟨[true, false, true, true], 2⟩, ⟨[true, true], 2⟩]
    [⟨[true, false, false, true], 2, 1⟩] = .ok [false, true, true] := by
  rw [C52_blocks_partial]
  · decide
  · intro p hp
    simp only [List.zip_cons_cons, List.zip_nil_right, List.mem_singleton] at hp
    subst hp
    exact ⟨by decide, rfl, rfl, rfl⟩
  · decide
  · decide

/-- C52 is false for blocks: a frame with fewer (but several) decoded blocks than transmitted makes the
evaluation raise instead of counting the missing blocks. -/
theorem C52_block_count_fails :
    blockErrors [⟨List.replicate 6 true, 2⟩] [⟨List.replicate 4 true, 2, 1⟩] = .error .value := by
  decide +kernel

/-- C52 is false for blocks: if a single block of a frame has been received, it is compared with every
transmitted block; the blocks never received count as correct. -/
theorem C52_single_block_fails :
    blockErrors [⟨List.replicate 6 true, 2⟩] [⟨List.replicate 2 true, 2, 1⟩] =
      .ok [false, false, false] := by
  decide +kernel

/-! ### C52, frames -/

theorem arrayEquiv_iff (a b : List Bool) (h : a.length ≠ 1 ∨ b.length = 1)
    (h' : b.length ≠ 1 ∨ a.length = 1) : arrayEquiv a b = true ↔ a = b := by
  by_cases hl : a.length = b.length
  · have e : bcast a.length b.length = some a.length := by simp [bcast, hl]
    simp only [arrayEquiv, e, List.all_eq_true, List.mem_range, decide_eq_true_eq]
    constructor
    · intro H
      apply List.ext_getElem? 
      intro i
      by_cases hi : i < a.length
      · have := H i hi
        have e1 : bidx a.length i = i := by unfold bidx; split <;> omega
        have e2 : bidx b.length i = i := by unfold bidx; split <;> omega
        rwa [e1, e2] at this
      · rw [List.getElem?_eq_none (by omega), List.getElem?_eq_none (by omega)]
    · rintro rfl i _; rfl
  · have e : bcast a.length b.length = none := by
      rw [bcast, if_neg hl, if_neg (by omega), if_neg (by omega)]
    simp only [arrayEquiv, e]
    constructor
    · intro h; cases h
    · rintro rfl; exact absurd rfl hl

/-- C52, frames: one entry per transmitted or received frame. Frame `f` is marked iff its bits differ,
provided that its two versions do not differ in that only one of them consists of a single bit; frames
without counterpart are marked. -/
theorem C52_frames_partial (tx : List TxFrame) (rx : List RxFrame) :
    (frameErrors tx rx).length = max tx.length rx.length ∧
    (∀ (f : Nat) (t : TxFrame) (r : RxFrame), tx[f]? = some t → rx[f]? = some r →
      (t.bits.length = 1 ↔ r.bits.length = 1) →
      (frameErrors tx rx)[f]? = some (decide (t.bits ≠ r.bits))) ∧
    (∀ f : Nat, f < max tx.length rx.length → min tx.length rx.length ≤ f →
      (frameErrors tx rx)[f]? = some true) := by
  have hl : (List.zipWith (fun (t : TxFrame) (r : RxFrame) => !arrayEquiv t.bits r.bits) tx rx).length
      = min tx.length rx.length := by simp
  refine ⟨?_, ?_, ?_⟩
  · simp only [frameErrors, List.length_append, hl, List.length_replicate]; omega
  · intro f t r ht hr h1
    have i1 := (List.getElem?_eq_some_iff.mp ht).1
    have i2 := (List.getElem?_eq_some_iff.mp hr).1
    simp only [frameErrors]
    rw [List.getElem?_append_left (by rw [hl]; omega)]
    simp only [List.getElem?_zipWith, ht, hr]
    congr 1
    have := arrayEquiv_iff t.bits r.bits (by tauto) (by tauto)
    cases ha : arrayEquiv t.bits r.bits with
    | true => simp [this.mp ha]
    | false =>
      have hne : t.bits ≠ r.bits := fun h => by rw [this.mpr h] at ha; cases ha
      simp [hne]
  · intro f h1 h2
    simp only [frameErrors]
    rw [List.getElem?_append_right (by rw [hl]; omega), hl, List.getElem?_replicate,
      if_pos (by omega)]

example : frameErrors [⟨[true, false], 2⟩, ⟨[true], 1⟩, ⟨[true], 1⟩]
    [⟨[true, false], 2, 1⟩, ⟨[false], 1, 1⟩] = [false, true, true] := by decide

/-- C52 is false for frames: a frame of which a single bit has been received counts as correct if all
transmitted bits equal that bit. -/
theorem C52_single_bit_fails (b : Bool) (n : Nat) (hn : 2 ≤ n) :
    frameErrors [⟨List.replicate n b, n⟩] [⟨[b], 1, 1⟩] = [false] := by
  have e : bcast n 1 = some n := by rw [bcast, if_neg (by omega), if_neg (by omega), if_pos rfl]
  have : arrayEquiv (List.replicate n b) [b] = true := by
    simp only [arrayEquiv, List.length_replicate, List.length_cons, List.length_nil, Nat.zero_add, e,
      List.all_eq_true, List.mem_range, decide_eq_true_eq]
    intro i hi
    simp [bidx, show n ≠ 1 by omega, hi]
  simp [frameErrors, this]

/-! ### C53: throughput -/

/-- C53: if all received frames have the same number of bits and the same duration, the throughput is
the number of bits in correct frames divided by the time all frames take (lost frames included);
without any received frame it is zero. -/
theorem C53_throughput (tx : List TxFrame) (rx : List RxFrame) (bits : Nat) (duration sd : ℚ)
    (hd : 0 < duration) (h : ∀ f ∈ rx, f.bits.length = bits ∧ f.duration = duration) :
    throughput tx rx sd * (max tx.length rx.length * duration) =
      ((((List.range rx.length).filter fun f => (frameErrors tx rx)[f]? = some false).map
        fun _ => bits).sum : ℚ) := by
  have hfl := (C52_frames_partial tx rx).1
  cases rx with
  | nil => simp [throughput, throughputOf]
  | cons f rx =>
    obtain ⟨hb, hdu⟩ := h f (by simp)
    have hpos : 0 < max tx.length (f :: rx).length := by simp
    have hcount : ∀ (l : List Bool) (n : Nat), l.length ≥ n → (∀ i : Nat, n ≤ i → i < l.length → l[i]? = some true) →
        ((List.range n).filter fun i => decide (l[i]? = some false)).length =
          (l.filter (!·)).length := by
      intro l
      induction l with
      | nil => intro n hn _; simp at hn; subst hn; rfl
      | cons b l ih =>
        intro n hn H
        cases n with
        | zero =>
          have hall : ∀ x ∈ (b :: l), x = true := by
            intro x hx
            obtain ⟨i, hi, rfl⟩ := List.getElem_of_mem hx
            have := H i (by omega) hi
            rw [List.getElem?_eq_getElem hi] at this
            injection this
          have : (b :: l).filter (!·) = [] := by
            rw [List.filter_eq_nil_iff]
            intro a ha
            simp [hall a ha]
          rw [this]; rfl
        | succ n =>
          have := ih n (by simpa using hn) (fun i hi1 hi2 => by
            have := H (i + 1) (by omega) (by simpa using hi2)
            simpa using this)
          rw [List.range_succ_eq_map, List.filter_cons, List.filter_cons, List.filter_map]
          simp only [List.getElem?_cons_zero, Function.comp_def, List.getElem?_cons_succ]
          cases b <;> simp [this]
    have hc := hcount (frameErrors tx (f :: rx)) (f :: rx).length (by rw [hfl]; omega)
      (fun i h1 h2 => (C52_frames_partial tx (f :: rx)).2.2 i (by rwa [hfl] at h2)
        (le_trans (Nat.min_le_right _ _) h1))
    simp only [throughput, throughputOf, hfl, hb, hdu]
    rw [if_neg (by push Not; exact ⟨by omega, hd⟩)]
    simp only [List.map_const', List.sum_replicate, nsmul_eq_mul]
    rw [hc]
    have : ((max tx.length (f :: rx).length : ℕ) : ℚ) ≠ 0 := by exact_mod_cast hpos.ne'
    push_cast at this ⊢
    field_simp

example : throughput [⟨[true, false], 2⟩, ⟨[true, false], 2⟩, ⟨[true, true], 2⟩]
    [⟨[true, false], 2, 1 / 10⟩, ⟨[true, true], 2, 1 / 10⟩] 1 = 20 / 3 := by
  norm_num [throughput, throughputOf, frameErrors, arrayEquiv, bcast, bidx]
  decide +kernel

/-- C53, bounds: a throughput is never negative and never above the rate of a link without errors. -/
theorem C53_bounds (n : Nat) (d : ℚ) (e : List Bool) :
    0 ≤ throughputOf n d e ∧ (0 < d → throughputOf n d e ≤ n / d) := by
  unfold throughputOf
  split
  · refine ⟨le_refl _, fun h => by positivity⟩
  · rename_i h
    push Not at h
    obtain ⟨h1, h2⟩ := h
    have hle : (e.filter (!·)).length ≤ e.length := List.length_filter_le _ _
    have hle' : ((e.filter (!·)).length : ℚ) ≤ e.length := by exact_mod_cast hle
    have hpos : (0 : ℚ) < e.length := by exact_mod_cast h1
    refine ⟨by positivity, fun _ => ?_⟩
    rw [div_le_div_iff₀ (by positivity) h2]
    have hn : (0 : ℚ) ≤ n := by positivity
    nlinarith [mul_le_mul_of_nonneg_right hle' (mul_nonneg hn h2.le)]

/-! ### C52: which transmission and reception are evaluated -/

/-- Events seen by a `CommunicationEvaluator`: the registered callbacks of both modems. -/
inductive EvalOp (T R : Type)
  | transmitted (t : T)
  | received (r : R)

/-- `CommunicationEvaluator`: cached transmission and reception, `modem/evaluators.py` 82-113. -/
structure Cache (T R : Type) where
  transmission : Option T
  reception : Option R

/-- `__transmit_callback` / `__receive_callback`, `modem/evaluators.py` 105-113. -/
def Cache.step {T R : Type} (c : Cache T R) : EvalOp T R → Cache T R
  | .transmitted t => { c with transmission := some t }
  | .received r => { c with reception := some r }

/-- `_fetch_dsp_results`, `modem/evaluators.py` 115-135. -/
def Cache.fetch {T R : Type} (c : Cache T R) : Except PyErr (T × R) :=
  match c.transmission, c.reception with
  | none, _ => .error .runtime
  | _, none => .error .runtime
  | some t, some r => .ok (t, r)

/-- C52, histories: after any history the evaluators compare the last transmission with the last
reception, whatever their order, and raise `RuntimeError` iff one of them has never happened. -/
theorem C52_latest {T R : Type} (ops : List (EvalOp T R)) :
    (∀ (a b : List (EvalOp T R)) (c d : List (EvalOp T R)) (t : T) (r : R),
      ops = a ++ .transmitted t :: b → (∀ x, EvalOp.transmitted x ∉ b) →
      ops = c ++ .received r :: d → (∀ x, EvalOp.received x ∉ d) →
      (ops.foldl Cache.step ⟨none, none⟩).fetch = .ok (t, r)) ∧
    ((∀ t, EvalOp.transmitted t ∉ ops) ∨ (∀ r, EvalOp.received r ∉ ops) ↔
      (ops.foldl Cache.step ⟨none, none⟩).fetch = .error .runtime) := by
  have keepT : ∀ (b : List (EvalOp T R)) (c : Cache T R), (∀ x, EvalOp.transmitted x ∉ b) →
      (b.foldl Cache.step c).transmission = c.transmission := by
    intro b
    induction b with
    | nil => intro c _; rfl
    | cons o b ih =>
      intro c h
      rw [List.foldl_cons, ih _ (fun x hx => h x (by simp [hx]))]
      cases o with
      | transmitted t => exact absurd (by simp) (h t)
      | received r => rfl
  have keepR : ∀ (b : List (EvalOp T R)) (c : Cache T R), (∀ x, EvalOp.received x ∉ b) →
      (b.foldl Cache.step c).reception = c.reception := by
    intro b
    induction b with
    | nil => intro c _; rfl
    | cons o b ih =>
      intro c h
      rw [List.foldl_cons, ih _ (fun x hx => h x (by simp [hx]))]
      cases o with
      | received t => exact absurd (by simp) (h t)
      | transmitted r => rfl
  have someT : ∀ (b : List (EvalOp T R)) (c : Cache T R),
      (c.transmission.isSome ∨ ∃ x, EvalOp.transmitted x ∈ b) →
      (b.foldl Cache.step c).transmission.isSome := by
    intro b
    induction b with
    | nil => intro c h; simpa using h
    | cons o b ih =>
      intro c h
      rw [List.foldl_cons]
      apply ih
      cases o with
      | transmitted t => left; rfl
      | received r =>
        rcases h with h | ⟨x, hx⟩
        · left; exact h
        · right; exact ⟨x, by simpa using hx⟩
  have someR : ∀ (b : List (EvalOp T R)) (c : Cache T R),
      (c.reception.isSome ∨ ∃ x, EvalOp.received x ∈ b) →
      (b.foldl Cache.step c).reception.isSome := by
    intro b
    induction b with
    | nil => intro c h; simpa using h
    | cons o b ih =>
      intro c h
      rw [List.foldl_cons]
      apply ih
      cases o with
      | received t => left; rfl
      | transmitted r =>
        rcases h with h | ⟨x, hx⟩
        · left; exact h
        · right; exact ⟨x, by simpa using hx⟩
  constructor
  · intro a b c d t r h1 h2 h3 h4
    have e1 : (ops.foldl Cache.step ⟨none, none⟩).transmission = some t := by
      rw [h1, List.foldl_append, List.foldl_cons, keepT b _ h2]; rfl
    have e2 : (ops.foldl Cache.step ⟨none, none⟩).reception = some r := by
      rw [h3, List.foldl_append, List.foldl_cons, keepR d _ h4]; rfl
    simp [Cache.fetch, e1, e2]
  · constructor
    · rintro (h | h)
      · simp [Cache.fetch, keepT ops _ h]
      · have := keepR ops ⟨none, none⟩ h
        simp only [Cache.fetch, this]
        cases (ops.foldl Cache.step ⟨none, none⟩).transmission <;> rfl
    · intro h
      by_contra hc
      push Not at hc
      obtain ⟨⟨t, ht⟩, ⟨r, hr⟩⟩ := hc
      have s1 := someT ops ⟨none, none⟩ (Or.inr ⟨t, ht⟩)
      have s2 := someR ops ⟨none, none⟩ (Or.inr ⟨r, hr⟩)
      obtain ⟨t', e1⟩ := Option.isSome_iff_exists.mp s1
      obtain ⟨r', e2⟩ := Option.isSome_iff_exists.mp s2
      simp [Cache.fetch, e1, e2] at h

example : ([EvalOp.transmitted 1, .received 'a', .transmitted 2].foldl Cache.step
    (⟨none, none⟩ : Cache Nat Char)).fetch = .ok (2, 'a') :=
  (C52_latest _).1 [.transmitted 1, .received 'a'] [] [.transmitted 1] [.transmitted 2] 2 'a' rfl
    (by simp) rfl (by simp)

end Verif.Modem
