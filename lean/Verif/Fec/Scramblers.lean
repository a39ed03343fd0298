import Verif.Fec.Model
import Mathlib.Data.Nat.Prime.Defs
import Mathlib.Logic.Function.Iterate
import Mathlib.Dynamics.PeriodicPts.Lemmas
import Mathlib.Tactic.NormNum.Prime

/-!
# C04, C05: scramblers
-/

namespace Verif.Fec

/-! ## Specification vocabulary: what went in and came out of a call history -/

/-- Bits passed to `encode`, in call order. -/
def encInputs : List ScrOp → List Bool
  | [] => []
  | .encode b :: ops => b ++ encInputs ops
  | .decode _ :: ops => encInputs ops

/-- Bits passed to `decode`, in call order. -/
def decInputs : List ScrOp → List Bool
  | [] => []
  | .encode _ :: ops => decInputs ops
  | .decode b :: ops => b ++ decInputs ops

/-- Bits returned by the `encode` calls, given the results of all calls. -/
def encOutputs : List ScrOp → List (List Bool) → List Bool
  | .encode _ :: ops, r :: rs => r ++ encOutputs ops rs
  | .decode _ :: ops, _ :: rs => encOutputs ops rs
  | _, _ => []

/-- Bits returned by the `decode` calls, given the results of all calls. -/
def decOutputs : List ScrOp → List (List Bool) → List Bool
  | .encode _ :: ops, _ :: rs => decOutputs ops rs
  | .decode _ :: ops, r :: rs => r ++ decOutputs ops rs
  | _, _ => []

/-! ## C04 -/

/-- Key stream of a generator state, as an infinite sequence. -/
def keystream (s : Prng) (n : Nat) : Bool := ((fun t : Prng => t.generate.2)^[n] s).generate.1

theorem keystream_shift (s : Prng) (k n : Nat) :
    keystream ((fun t : Prng => t.generate.2)^[k] s) n = keystream s (n + k) := by
  unfold keystream; rw [← Function.iterate_add_apply]

theorem generateSequence_eq (n : Nat) (s : Prng) :
    s.generateSequence n =
      ((List.range n).map (keystream s), (fun t : Prng => t.generate.2)^[n] s) := by
  induction n generalizing s with
  | zero => rfl
  | succ n ih =>
    simp only [Prng.generateSequence, ih, Function.iterate_succ, Function.comp]
    rw [List.range_succ_eq_map, List.map_cons, List.map_map]
    congr 2

/-- Stream cipher with a given key sequence, starting at position `k`. -/
def xorFrom (key : Nat → Bool) (k : Nat) (xs : List Bool) : List Bool :=
  List.zipWith (fun x c => x ^^ c) xs ((List.range xs.length).map fun i => key (i + k))

theorem xorFrom_append (key : Nat → Bool) (k : Nat) (a b : List Bool) :
    xorFrom key k (a ++ b) = xorFrom key k a ++ xorFrom key (k + a.length) b := by
  unfold xorFrom
  rw [List.length_append, List.range_add, List.map_append, List.zipWith_append (by simp)]
  rw [List.map_map]
  congr 2
  apply List.map_congr_left
  intro i _
  simp only [Function.comp]
  congr 1
  omega

theorem xorFrom_length (key : Nat → Bool) (k : Nat) (a : List Bool) :
    (xorFrom key k a).length = a.length := by simp [xorFrom]

theorem xorFrom_involutive (key : Nat → Bool) (k : Nat) (a : List Bool) :
    xorFrom key k (xorFrom key k a) = a := by
  apply List.ext_getElem?
  intro i
  by_cases hi : i < a.length
  · simp [xorFrom, List.getElem?_zipWith, List.getElem?_eq_getElem hi, List.getElem?_range hi]
  · have h1 := xorFrom_length key k (xorFrom key k a)
    have h2 := xorFrom_length key k a
    rw [List.getElem?_eq_none (by omega), List.getElem?_eq_none (by omega)]

theorem encode_eq (s : Scrambler3GPP) (b : List Bool) :
    s.encode b = (xorFrom (keystream s.tx) 0 b,
      { s with tx := (fun t : Prng => t.generate.2)^[b.length] s.tx }) := by
  simp only [Scrambler3GPP.encode, generateSequence_eq]; rfl

theorem decode_eq (s : Scrambler3GPP) (b : List Bool) :
    s.decode b = (xorFrom (keystream s.rx) 0 b,
      { s with rx := (fun t : Prng => t.generate.2)^[b.length] s.rx }) := by
  simp only [Scrambler3GPP.decode, generateSequence_eq]; rfl

theorem xorFrom_shift (s : Prng) (k : Nat) (b : List Bool) :
    xorFrom (keystream ((fun t : Prng => t.generate.2)^[k] s)) 0 b = xorFrom (keystream s) k b := by
  unfold xorFrom
  congr 1
  apply List.map_congr_left
  intro i _
  simp [keystream_shift]

theorem run_encOutputs (ops : List ScrOp) (s : Scrambler3GPP) :
    encOutputs ops (s.run ops) = xorFrom (keystream s.tx) 0 (encInputs ops) := by
  induction ops generalizing s with
  | nil => rfl
  | cons op ops ih =>
    cases op with
    | encode b =>
      simp only [Scrambler3GPP.run, encOutputs, encInputs, ih, encode_eq, xorFrom_append,
        Nat.zero_add, xorFrom_shift]
    | decode b =>
      simp only [Scrambler3GPP.run, encOutputs, encInputs, ih, decode_eq]

theorem run_decOutputs (ops : List ScrOp) (s : Scrambler3GPP) :
    decOutputs ops (s.run ops) = xorFrom (keystream s.rx) 0 (decInputs ops) := by
  induction ops generalizing s with
  | nil => rfl
  | cons op ops ih =>
    cases op with
    | encode b =>
      simp only [Scrambler3GPP.run, decOutputs, decInputs, ih, encode_eq]
    | decode b =>
      simp only [Scrambler3GPP.run, decOutputs, decInputs, ih, decode_eq, xorFrom_append,
        Nat.zero_add, xorFrom_shift]

theorem new_tx_eq_rx {seed : List Bool} {s : Scrambler3GPP} (h : Scrambler3GPP.new seed = .ok s) :
    s.tx = s.rx := by
  unfold Scrambler3GPP.new at h
  cases hp : Prng.new seed with
  | error e => rw [hp] at h; cases h
  | ok p => rw [hp] at h; cases h; rfl

/-- **C04.** Take two `Scrambler3GPP` objects built from one seed (or one and the same object, by
choosing `histA = histB`) and let each live through an arbitrary history of encode and decode
calls with blocks of any size. If the bits fed to the decode calls of the second are a prefix of
the bits returned by the encode calls of the first (in whatever segmentation), then the second's
decode calls return the corresponding prefix of the bits fed to the first's encode calls. -/
theorem C04_scrambler3gpp_transparent (seed : List Bool) (s : Scrambler3GPP)
    (hs : Scrambler3GPP.new seed = .ok s) (histA histB : List ScrOp)
    (hlink : decInputs histB <+: encOutputs histA (s.run histA)) :
    decOutputs histB (s.run histB) <+: encInputs histA ∧
    (decOutputs histB (s.run histB)).length = (decInputs histB).length := by
  rw [run_decOutputs, ← new_tx_eq_rx hs]
  refine ⟨?_, by rw [xorFrom_length]⟩
  rw [run_encOutputs] at hlink
  obtain ⟨rest, hrest⟩ := hlink
  have h2 := congrArg (xorFrom (keystream s.tx) 0) hrest
  rw [xorFrom_involutive, xorFrom_append] at h2
  exact ⟨_, h2⟩

/-- **C04 (complete streams).** If all scrambled bits are delivered, all data bits come back. -/
theorem C04_scrambler3gpp_roundtrip (seed : List Bool) (s : Scrambler3GPP)
    (hs : Scrambler3GPP.new seed = .ok s) (histA histB : List ScrOp)
    (hlink : decInputs histB = encOutputs histA (s.run histA)) :
    decOutputs histB (s.run histB) = encInputs histA := by
  obtain ⟨h1, h2⟩ := C04_scrambler3gpp_transparent seed s hs histA histB (hlink ▸ List.prefix_refl _)
  apply h1.eq_of_length
  rw [h2, hlink, run_encOutputs, xorFrom_length]

/-- **C04 (segmentation).** The scrambled stream only depends on the concatenation of the blocks:
two histories that encode the same bits, cut differently, emit the same bits. -/
theorem C04_scrambler3gpp_segmentation (s : Scrambler3GPP) (histA histB : List ScrOp)
    (h : encInputs histA = encInputs histB) :
    encOutputs histA (s.run histA) = encOutputs histB (s.run histB) := by
  rw [run_encOutputs, run_encOutputs, h]

/-- **C04 (error branch).** Construction fails exactly for seeds shorter than four bits. -/
theorem C04_scrambler3gpp_seed_contract (seed : List Bool) :
    (∃ s, Scrambler3GPP.new seed = .ok s) ↔ 4 ≤ seed.length := by
  unfold Scrambler3GPP.new Prng.new
  by_cases h : seed.length < 4
  · simp only [h, if_true]
    constructor
    · rintro ⟨s, hs⟩; cases hs
    · omega
  · simp only [h, if_false]
    exact ⟨fun _ => by omega, fun _ => ⟨_, rfl⟩⟩

theorem qAppend_length (q : List Bool) (x : Bool) : (qAppend q x).length = q.length := by
  simp [qAppend]

theorem skip_length (s : Prng) : s.skip.q1.length = s.q1.length ∧
    s.skip.q2.length = s.q2.length := by
  simp [Prng.skip, Prng.forwardX1, Prng.forwardX2, qAppend_length]

theorem generate_length (s : Prng) : s.generate.2.q1.length = s.q1.length ∧
    s.generate.2.q2.length = s.q2.length := by
  simp [Prng.generate, Prng.forwardX1, Prng.forwardX2, qAppend_length]

/-- **C04 (no queue underflow).** In every reachable generator state both queues hold exactly as
many bits as the seed, at least four, so every queue access of the code is in range. -/
theorem C04_prng_queues_never_underflow (seed : List Bool) (p : Prng) (hp : Prng.new seed = .ok p)
    (n : Nat) : let t := (p.generateSequence n).2
    t.q1.length = seed.length ∧ t.q2.length = seed.length ∧ 4 ≤ seed.length := by
  have hskip : ∀ (k : Nat) (s : Prng), (Prng.skip^[k] s).q1.length = s.q1.length ∧
      (Prng.skip^[k] s).q2.length = s.q2.length := by
    intro k
    induction k with
    | zero => intro s; exact ⟨rfl, rfl⟩
    | succ k ih =>
      intro s
      rw [Function.iterate_succ, Function.comp]
      have h1 := ih s.skip
      have h2 := skip_length s
      exact ⟨h1.1.trans h2.1, h1.2.trans h2.2⟩
  have hgen : ∀ (k : Nat) (s : Prng),
      ((fun t : Prng => t.generate.2)^[k] s).q1.length = s.q1.length ∧
      ((fun t : Prng => t.generate.2)^[k] s).q2.length = s.q2.length := by
    intro k
    induction k with
    | zero => intro s; exact ⟨rfl, rfl⟩
    | succ k ih =>
      intro s
      rw [Function.iterate_succ, Function.comp]
      have h1 := ih s.generate.2
      have h2 := generate_length s
      exact ⟨h1.1.trans h2.1, h1.2.trans h2.2⟩
  unfold Prng.new at hp
  split at hp
  · cases hp
  · next h =>
    cases hp
    intro t
    have h1 := hgen n (Prng.skip^[1600 - seed.length]
      { q1 := (true :: List.replicate seed.length false).take seed.length, q2 := seed })
    have h2 := hskip (1600 - seed.length)
      { q1 := (true :: List.replicate seed.length false).take seed.length, q2 := seed }
    simp only [t, generateSequence_eq]
    refine ⟨?_, ?_, by omega⟩
    · rw [h1.1, h2.1]; simp
    · rw [h1.2, h2.2]

-- Non-vacuity: a constructible scrambler, and a history that decodes what another one encoded.
example : ∃ s, Scrambler3GPP.new [false, true, false, true, true, false, true] = .ok s :=
  (C04_scrambler3gpp_seed_contract _).mpr (by decide)
example (s : Scrambler3GPP) :
    let A := [ScrOp.encode [true, false, true], .decode [true], .encode [true]]
    decInputs [.decode (encOutputs A (s.run A))] = encOutputs A (s.run A) := by
  intro A; simp [decInputs]

/-! ## C05 -/

/-- Step of the 802.11a shift register on a full queue. -/
def lfsr (q : List Bool) : List Bool := (((q[3]?.getD false) ^^ (q[6]?.getD false)) :: q).take 7

/-- Output bit of the 802.11a shift register on a full queue. -/
def lfsrBit (q : List Bool) : Bool := (q[3]?.getD false) ^^ (q[6]?.getD false)

theorem lfsr_length (q : List Bool) (h : q.length = 7) : (lfsr q).length = 7 := by
  simp [lfsr, h]

theorem forward_eq (s : Scrambler80211a) (h : s.queue.length = 7) :
    s.forward = .ok (lfsrBit s.queue, ⟨lfsr s.queue⟩) := by
  unfold Scrambler80211a.forward lfsrBit lfsr
  rw [List.getElem?_eq_getElem (by omega : 3 < s.queue.length),
    List.getElem?_eq_getElem (by omega : 6 < s.queue.length)]
  rfl

theorem iterate_lfsr_length (n : Nat) (q : List Bool) (h : q.length = 7) :
    (lfsr^[n] q).length = 7 := by
  induction n generalizing q with
  | zero => exact h
  | succ n ih => rw [Function.iterate_succ]; exact ih _ (lfsr_length q h)

/-- Key sequence of the 802.11a register. -/
def key11a (q : List Bool) (n : Nat) : Bool := lfsrBit (lfsr^[n] q)

theorem key11a_shift (q : List Bool) (k n : Nat) :
    key11a (lfsr^[k] q) n = key11a q (n + k) := by
  unfold key11a; rw [← Function.iterate_add_apply]

theorem xorFrom_cons (key : Nat → Bool) (k : Nat) (b : Bool) (bs : List Bool) :
    xorFrom key k (b :: bs) = (b ^^ key k) :: xorFrom key (k + 1) bs := by
  have := xorFrom_append key k [b] bs
  simp only [List.singleton_append, List.length_singleton] at this
  rw [this]
  simp [xorFrom]

theorem xorFrom_key11a (q : List Bool) (k : Nat) (b : List Bool) :
    xorFrom (key11a (lfsr^[k] q)) 0 b = xorFrom (key11a q) k b := by
  unfold xorFrom
  congr 1
  apply List.map_congr_left
  intro i _
  simp [key11a_shift]

theorem scramble_eq (bs : List Bool) (s : Scrambler80211a) (h : s.queue.length = 7) :
    s.scramble bs = .ok (xorFrom (key11a s.queue) 0 bs, ⟨lfsr^[bs.length] s.queue⟩) := by
  induction bs generalizing s with
  | nil => rfl
  | cons b bs ih =>
    unfold Scrambler80211a.scramble
    rw [forward_eq s h]
    simp only [bind, Except.bind]
    rw [ih ⟨lfsr s.queue⟩ (lfsr_length _ h)]
    simp only []
    rw [xorFrom_cons, Bool.xor_comm]
    have := xorFrom_key11a s.queue 1 bs
    simp only [Function.iterate_one] at this
    rw [this]
    rfl

theorem runBlocks_eq (blocks : List (List Bool)) (s : Scrambler80211a) (h : s.queue.length = 7) :
    ∃ outs, s.runBlocks blocks = .ok (outs, ⟨lfsr^[blocks.flatten.length] s.queue⟩) ∧
      outs.flatten = xorFrom (key11a s.queue) 0 blocks.flatten ∧
      outs.map List.length = blocks.map List.length := by
  induction blocks generalizing s with
  | nil => exact ⟨[], rfl, rfl, rfl⟩
  | cons b bs ih =>
    obtain ⟨outs, h1, h2, h3⟩ := ih ⟨lfsr^[b.length] s.queue⟩ (iterate_lfsr_length _ _ h)
    refine ⟨xorFrom (key11a s.queue) 0 b :: outs, ?_, ?_, ?_⟩
    · unfold Scrambler80211a.runBlocks
      rw [scramble_eq b s h]
      simp only [bind, Except.bind]
      rw [h1]
      simp only [List.flatten_cons, List.length_append, ← Function.iterate_add_apply,
        Nat.add_comm]
    · simp only [List.flatten_cons, h2, xorFrom_append, xorFrom_key11a, Nat.zero_add]
    · simp only [List.map_cons, h3, xorFrom_length]

/-- **C05 (transparent pair).** Two `Scrambler80211a` objects holding the same 7-bit seed: what
one scrambles in any block segmentation, the other descrambles in any other segmentation. -/
theorem C05_scrambler80211a_pair_transparent (seed : List Bool) (h7 : seed.length = 7)
    (blocksA : List (List Bool)) :
    ∃ outs s1, (Scrambler80211a.new seed).runBlocks blocksA = .ok (outs, s1) ∧
      ∀ blocksB : List (List Bool), blocksB.flatten = outs.flatten →
        ∃ back s2, (Scrambler80211a.new seed).runBlocks blocksB = .ok (back, s2) ∧
          back.flatten = blocksA.flatten := by
  have hq : (Scrambler80211a.new seed).queue = seed := by simp [Scrambler80211a.new, h7]
  have hq7 : (Scrambler80211a.new seed).queue.length = 7 := by rw [hq, h7]
  obtain ⟨outs, h1, h2, _⟩ := runBlocks_eq blocksA _ hq7
  refine ⟨outs, _, h1, ?_⟩
  intro blocksB hB
  obtain ⟨back, b1, b2, _⟩ := runBlocks_eq blocksB _ hq7
  refine ⟨back, _, b1, ?_⟩
  rw [b2, hB, h2, xorFrom_involutive]

/-- All bit words of a given length (specification helper). -/
def allWords : Nat → List (List Bool)
  | 0 => [[]]
  | n + 1 => (allWords n).flatMap fun w => [false :: w, true :: w]

theorem mem_allWords (n : Nat) (w : List Bool) (h : w.length = n) : w ∈ allWords n := by
  induction n generalizing w with
  | zero => simp [List.length_eq_zero_iff.mp h, allWords]
  | succ n ih =>
    cases w with
    | nil => simp at h
    | cons b w =>
      simp only [List.length_cons, Nat.add_right_cancel_iff] at h
      simp only [allWords, List.mem_flatMap]
      refine ⟨w, ih w h, ?_⟩
      cases b <;> simp

/-- The first `n` key bits, computed in one pass. -/
def keyList : Nat → List Bool → List Bool
  | 0, _ => []
  | n + 1, q => lfsrBit q :: keyList n (lfsr q)

theorem keyList_eq (n : Nat) (q : List Bool) : keyList n q = (List.range n).map (key11a q) := by
  induction n generalizing q with
  | zero => rfl
  | succ n ih =>
    rw [keyList, ih, List.range_succ_eq_map, List.map_cons, List.map_map]
    congr 1

-- complete table of the 128 register states
theorem lfsr_table : ∀ w ∈ allWords 7, lfsr^[127] w = w ∧
    (w ≠ List.replicate 7 false → lfsr w ≠ w ∧
      ((keyList 127 w).count true = 64 ∧ (keyList 127 w).count false = 63)) := by
  decide +kernel

theorem lfsr_inj_table : ∀ w ∈ allWords 7, (List.range 7).map (fun i => key11a w i) =
    (lfsr^[7] w).reverse := by
  decide +kernel

/-- **C05 (period).** For each non-zero 7-bit seed the key sequence produced by scrambling zeros is
periodic, and its periods are exactly the multiples of 127. -/
theorem C05_keystream_period_127 (seed : List Bool) (h7 : seed.length = 7)
    (h0 : seed ≠ List.replicate 7 false) (p : Nat) :
    (∀ n, key11a seed (n + p) = key11a seed n) ↔ 127 ∣ p := by
  have htab := lfsr_table seed (mem_allWords 7 seed h7)
  have h127 : Function.IsPeriodicPt lfsr 127 seed := htab.1
  have hne : lfsr seed ≠ seed := (htab.2 h0).1
  have hmin : Function.minimalPeriod lfsr seed = 127 := by
    have hd := h127.minimalPeriod_dvd
    rcases (Nat.dvd_prime (by norm_num : Nat.Prime 127)).mp hd with h1 | h1
    · exfalso
      apply hne
      exact Function.minimalPeriod_eq_one_iff_isFixedPt.mp h1
    · exact h1
  constructor
  · intro hp
    -- equal outputs determine equal states seven steps later, hence equal states
    have hst : lfsr^[7 + p] seed = lfsr^[7] seed := by
      have e1 := lfsr_inj_table (lfsr^[p] seed) (mem_allWords 7 _ (iterate_lfsr_length p seed h7))
      have e2 := lfsr_inj_table seed (mem_allWords 7 _ h7)
      have e3 : (List.range 7).map (fun i => key11a (lfsr^[p] seed) i) =
          (List.range 7).map (fun i => key11a seed i) := by
        apply List.map_congr_left
        intro i _
        rw [key11a_shift, hp]
      rw [e1, e2] at e3
      have := List.reverse_injective e3
      rw [← Function.iterate_add_apply] at this
      exact this
    have : lfsr^[120 + (7 + p)] seed = lfsr^[120 + 7] seed := by
      rw [Function.iterate_add_apply, hst, ← Function.iterate_add_apply]
    have hper : Function.IsPeriodicPt lfsr p seed := by
      show lfsr^[p] seed = seed
      have e : 120 + (7 + p) = p + 127 := by omega
      rw [e, Function.iterate_add_apply, h127] at this
      exact this
    have := hper.minimalPeriod_dvd
    rwa [hmin] at this
  · rintro ⟨k, rfl⟩ n
    have hk : lfsr^[127 * k] seed = seed := h127.mul_const k
    rw [← key11a_shift seed (127 * k) n, hk]

/-- **C05 (balance).** One period of the key sequence of a non-zero seed holds 64 ones and 63
zeros (maximum-length sequence). -/
theorem C05_keystream_balanced (seed : List Bool) (h7 : seed.length = 7)
    (h0 : seed ≠ List.replicate 7 false) :
    ((List.range 127).map (key11a seed)).count true = 64 ∧
    ((List.range 127).map (key11a seed)).count false = 63 := by
  rw [← keyList_eq]
  exact ((lfsr_table seed (mem_allWords 7 seed h7)).2 h0).2

/-- **C05 (link between key sequence and API).** Scrambling xors the `n`-th bit of the stream
with the `n`-th key bit; in particular scrambling zeros returns the key sequence. -/
theorem C05_scrambling_is_xor_with_keystream (seed : List Bool) (h7 : seed.length = 7)
    (data : List Bool) :
    ∃ out s1, (Scrambler80211a.new seed).encode data = .ok (out, s1) ∧
      out.length = data.length ∧
      ∀ n (h : n < data.length), out[n]? = some (data[n] ^^ key11a seed n) := by
  have hq : (Scrambler80211a.new seed).queue = seed := by simp [Scrambler80211a.new, h7]
  refine ⟨_, _, scramble_eq data _ (by rw [hq, h7]), by rw [xorFrom_length], ?_⟩
  intro n h
  simp [xorFrom, List.getElem?_zipWith, List.getElem?_eq_getElem h, List.getElem?_range h, hq]

/-- C05: the seed setter accepts exactly the seeds of seven bits, whatever happened before. -/
theorem C05_seed_validation (s : Scrambler80211a) (seed : List Bool) :
    s.setSeed seed = if seed.length = 7 then .ok (Scrambler80211a.new seed) else .error .value := by
  by_cases h : seed.length = 7 <;> simp [Scrambler80211a.setSeed, Scrambler80211a.new, h]

/-- **C05 (after re-seeding).** Writing the `seed` property rewinds the register, so an instance
can decode its own encoding after its seed was assigned again. -/
theorem C05_reseeded_instance_roundtrip (seed : List Bool) (h7 : seed.length = 7)
    (data : List Bool) :
    ∃ out s1 s2 s3, (Scrambler80211a.new seed).encode data = .ok (out, s1) ∧
      s1.setSeed seed = .ok s2 ∧ s2.decode out = .ok (data, s3) := by
  have hq : (Scrambler80211a.new seed).queue = seed := by simp [Scrambler80211a.new, h7]
  refine ⟨_, _, ⟨seed⟩, ⟨lfsr^[(xorFrom (key11a seed) 0 data).length] seed⟩,
    scramble_eq data _ (by rw [hq, h7]), ?_, ?_⟩
  · simp [Scrambler80211a.setSeed, h7]
  · rw [hq]
    refine (scramble_eq _ ⟨seed⟩ h7).trans ?_
    rw [xorFrom_involutive]

/-- **C05 (negation).** `encode` followed by `decode` on one instance is *not* the identity: both
share the register. The default seed and a single zero bit witness it. -/
theorem C05_single_instance_roundtrip_fails :
    ∃ out s1 back s2, (Scrambler80211a.new [false, true, false, true, true, false, true]).encode
        [false, false] = .ok (out, s1) ∧
      s1.decode out = .ok (back, s2) ∧ back ≠ [false, false] :=
  ⟨_, _, _, _, rfl, rfl, by decide⟩

/-- **C05 (error branch).** The constructor does not validate the seed: with fewer than seven bits
the first scrambled bit raises `IndexError`. -/
theorem C05_short_seed_raises (seed : List Bool) (h : seed.length < 7) (b : Bool)
    (bs : List Bool) : (Scrambler80211a.new seed).encode (b :: bs) = .error .index := by
  have hq : (Scrambler80211a.new seed).queue[6]? = none := by
    apply List.getElem?_eq_none
    simp only [Scrambler80211a.new, List.length_drop]
    omega
  have : (Scrambler80211a.new seed).forward = .error .index := by
    unfold Scrambler80211a.forward
    rw [hq]
    split
    · next h2 => cases h2
    · rfl
  simp only [Scrambler80211a.encode, Scrambler80211a.scramble, this]
  rfl

-- Non-vacuity: a non-zero seed of seven bits
example : [false, true, false, true, true, false, true].length = 7 ∧
    [false, true, false, true, true, false, true] ≠ List.replicate 7 false := by decide

end Verif.Fec
