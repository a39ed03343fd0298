import Verif.Fec.Manager

/-!
# C43 and multi-frame behaviour of coding chains
-/

namespace Verif.Fec

variable {σ : Type}

/-- Exactly nested block sizes: each code block length divides the next stage's data *and* code
block length. -/
def ExactlyNested : List (Nat × Nat) → Prop
  | [] => True
  | [_] => True
  | (_, L) :: (K, L') :: ks => L ∣ K ∧ L ∣ L' ∧ ExactlyNested ((K, L') :: ks)

theorem exact_loop (ks : List (Nat × Nat)) (K0 L0 : Nat)
    (hpos : ∀ k ∈ (K0, L0) :: ks, 1 ≤ k.1 ∧ 1 ≤ k.2) (hn : ExactlyNested ((K0, L0) :: ks))
    (b : Nat) : ∃ R, blockSizeLoopOf ks b L0 = .ok (b * R) ∧ ∀ q,
      codeLength ks (q * R * L0) = q * codeBlockSizeOf ((K0, L0) :: ks) ∧
      ¬ needsPadding ks (q * R * L0) := by
  induction ks generalizing K0 L0 b with
  | nil =>
    refine ⟨1, by simp [blockSizeLoopOf], fun q => ⟨?_, by simp [needsPadding]⟩⟩
    simp [codeLength, codeBlockSizeOf]
  | cons k ks ih =>
    obtain ⟨K, L⟩ := k
    obtain ⟨⟨r, rfl⟩, ⟨t, rfl⟩, hn'⟩ := hn
    have h0 := hpos (K0, L0) (by simp)
    have h1 := hpos (L0 * r, L0 * t) (by simp)
    simp only at h0 h1
    have hL0 : 0 < L0 := by omega
    have hr : 0 < r := Nat.pos_of_mul_pos_left (by omega : 0 < L0 * r)
    obtain ⟨R, hR, hq⟩ := ih (L0 * r) (L0 * t) (fun x hx => hpos x (by
      simp only [List.mem_cons] at hx ⊢; exact Or.inr hx)) hn' (b * r)
    refine ⟨r * R, ?_, ?_⟩
    · rw [blockSizeLoopOf, if_neg (by omega), Nat.mul_div_cancel_left _ hL0]
      have e : L0 * (r * (L0 * t) / (L0 * r)) = L0 * t := by
        have : r * (L0 * t) = L0 * r * t := by ring
        rw [this, Nat.mul_div_cancel_left _ (by omega : 0 < L0 * r)]
      rw [e, hR]
      congr 1; ring
    · intro q
      have hcb : codeBlockSizeOf ((K0, L0) :: (L0 * r, L0 * t) :: ks) =
          codeBlockSizeOf ((L0 * r, L0 * t) :: ks) := by simp [codeBlockSizeOf]
      have hlen : q * (r * R) * L0 = q * R * (L0 * r) := by ring
      have hblk : blocks (L0 * r) (q * (r * R) * L0) = q * R := by
        have h2 := (blocks_mul_eq_iff (L0 * r) (q * (r * R) * L0) (by omega)).mpr
          ⟨q * R, by rw [hlen]; ring⟩
        have h3 : blocks (L0 * r) (q * (r * R) * L0) * (L0 * r) = q * R * (L0 * r) := by
          rw [h2, hlen]
        exact Nat.eq_of_mul_eq_mul_right (by omega : 0 < L0 * r) h3
      rw [hcb]
      simp only [codeLength, needsPadding, hblk]
      refine ⟨(hq q).1, ?_⟩
      rintro (h | h)
      · exact h ⟨q * R, by rw [hlen]; ring⟩
      · exact (hq q).2 h

/-- Lengths: `required_num_data_bits(n)` bits fill exactly the whole code blocks that fit in `n`. -/
theorem required_bits_fit (m : Manager σ)
    (hes : ∀ e ∈ m.encoders, e.enabled = true → Invertible e)
    (hn : ExactlyNested (sizes m.encoders)) (n : Nat) :
    ∃ d, m.requiredNumDataBits n = .ok d ∧
      codeLength (sizes m.encoders) d = n / m.codeBlockSize * m.codeBlockSize ∧
      ¬ needsPadding (sizes m.encoders) d ∧ 1 ≤ m.codeBlockSize := by
  have hpos : ∀ k ∈ sizes m.encoders, 1 ≤ k.1 ∧ 1 ≤ k.2 := by
    intro k hk
    simp only [sizes, List.mem_map, List.mem_filter] at hk
    obtain ⟨e, ⟨he1, he2⟩, rfl⟩ := hk
    exact ⟨(hes e he1 he2).Kpos, (hes e he1 he2).Lpos⟩
  unfold Manager.requiredNumDataBits
  rw [bitBlockSize_eq, codeBlockSize_eq]
  cases hs : sizes m.encoders with
  | nil =>
    refine ⟨n, ?_, ?_, ?_, ?_⟩
    · simp [bitBlockSizeOfSizes, codeBlockSizeOf, bind, Except.bind, pure, Except.pure]
    · simp [codeLength, codeBlockSizeOf]
    · simp [needsPadding]
    · simp [codeBlockSizeOf]
  | cons k ks =>
    obtain ⟨K, L⟩ := k
    rw [hs] at hpos hn
    obtain ⟨R, hR, hq⟩ := exact_loop ks K L hpos hn K
    have hcb : 1 ≤ codeBlockSizeOf ((K, L) :: ks) := by
      unfold codeBlockSizeOf
      split
      · next K' L' he =>
        have := hpos (K', L') (List.mem_of_getLast? he)
        exact this.2
      · exact le_rfl
    have hk := hpos (K, L) (by simp)
    simp only at hk
    refine ⟨K * R * (n / codeBlockSizeOf ((K, L) :: ks)), ?_, ?_, ?_, hcb⟩
    · simp only [bitBlockSizeOfSizes, hR, bind, Except.bind, pure, Except.pure]
      rw [if_neg (by omega)]
    all_goals
      have hlen : K * R * (n / codeBlockSizeOf ((K, L) :: ks)) =
          (n / codeBlockSizeOf ((K, L) :: ks)) * R * K := by ring
      have hblk : blocks K (K * R * (n / codeBlockSizeOf ((K, L) :: ks))) =
          (n / codeBlockSizeOf ((K, L) :: ks)) * R := by
        have h2 := (blocks_mul_eq_iff K (K * R * (n / codeBlockSizeOf ((K, L) :: ks))) hk.1).mpr
          ⟨R * (n / codeBlockSizeOf ((K, L) :: ks)), by ring⟩
        have h3 : blocks K (K * R * (n / codeBlockSizeOf ((K, L) :: ks))) * K =
            (n / codeBlockSizeOf ((K, L) :: ks)) * R * K := by rw [h2, hlen]
        exact Nat.eq_of_mul_eq_mul_right (by omega : 0 < K) h3
    · simp only [codeLength, hblk]
      exact (hq _).1
    · simp only [needsPadding, hblk]
      rintro (h | h)
      · exact h ⟨R * (n / codeBlockSizeOf ((K, L) :: ks)), by ring⟩
      · exact (hq _).2 h

/-- **C43.** Frame dimensioning: `required_num_data_bits(n)` data bits can always be encoded to a
frame of exactly `n` code bits (padding allowed), and the frame decodes to the same data; if the
code block size divides `n`, this works even when padding is forbidden. For chains whose block
sizes are exactly nested. -/
theorem C43_required_bits_always_fit (m : Manager σ) (htr : m.allowTruncating = true)
    (hes : ∀ e ∈ m.encoders, e.enabled = true → Invertible e ∧ e.K ≤ e.L)
    (hn : ExactlyNested (sizes m.encoders)) (n : Nat) (hn0 : 1 ≤ n)
    (hpad : m.allowPadding = true ∨ m.codeBlockSize ∣ n) :
    ∃ d, m.requiredNumDataBits n = .ok d ∧
      ∀ (rng : Nat → Bool) (pos : Nat) (bits : List Bool), bits.length = d →
        ∃ code m1 p1, m.encode rng pos bits n = .ok (code, m1, p1) ∧ code.length = n ∧
          m1.decode code (some d) = .ok bits := by
  classical
  have hinv : ∀ e ∈ m.encoders, e.enabled = true → Invertible e := fun e h1 h2 => (hes e h1 h2).1
  obtain ⟨d, h1, h2, h3, h4⟩ := required_bits_fit m hinv hn n
  refine ⟨d, h1, ?_⟩
  intro rng pos bits hb
  have hc := C07_encode_contract m hinv rng pos n bits
  rw [if_neg (by rintro ⟨_, h⟩; rw [hb] at h; exact h3 h)] at hc
  have hlc : lengthContract m.allowPadding (sizes m.encoders) bits.length n = .ok n := by
    unfold lengthContract
    simp only [hb, h2, ← codeBlockSize_eq]
    have hle := Nat.div_mul_le_self n m.codeBlockSize
    have hlt : n - n / m.codeBlockSize * m.codeBlockSize < m.codeBlockSize := by
      have h5 := Nat.div_add_mod n m.codeBlockSize
      have h6 := Nat.mod_lt n (show 0 < m.codeBlockSize by omega)
      have h7 : m.codeBlockSize * (n / m.codeBlockSize) = n / m.codeBlockSize * m.codeBlockSize :=
        Nat.mul_comm _ _
      omega
    rw [if_neg (by omega), if_neg (by omega)]
    split
    · rfl
    · next hne =>
      rcases hpad with hp | hp
      · simp [hp, hlt]
      · exact absurd (Nat.div_mul_cancel hp).symm hne
  rw [hlc] at hc
  cases he : m.encode rng pos bits n with
  | error e => rw [he] at hc; cases hc
  | ok r =>
    obtain ⟨code, m1, p1⟩ := r
    rw [he] at hc
    simp only [Except.map, Except.ok.injEq] at hc
    refine ⟨code, m1, p1, rfl, hc, ?_⟩
    rw [← hb]
    refine C06_nested_chain_roundtrip m htr hes ?_ rng pos n bits code m1 p1 he
    clear hc hlc h1 h2 h3 h4 he hb hpad
    generalize sizes m.encoders = ks at hn
    induction ks with
    | nil => trivial
    | cons k ks ih =>
      cases ks with
      | nil => trivial
      | cons k' ks => exact ⟨hn.1, ih hn.2.2⟩

example : ExactlyNested [(32, 96), (96, 96)] ∧ ExactlyNested [(1, 1), (32, 96), (192, 288)] :=
  ⟨⟨by decide, by decide, trivial⟩, ⟨by decide, by decide, by decide, by decide, trivial⟩⟩

/-! ## Several frames through one manager -/

/-- A 3GPP scrambler followed by a two-bit block code of rate one. -/
def scrambledChain (s : Scrambler3GPP) : Manager Scrambler3GPP :=
  { encoders := [scramblerEncoder s, repetitionEncoder 2 1 s]
    allowPadding := true
    allowTruncating := true }

/-- Send two single-bit frames through encode and decode of one manager; what comes back. -/
def twoFrames (m : Manager Scrambler3GPP) (rng : Nat → Bool) (b1 b2 : Bool) :
    Except PyErr (List Bool × List Bool) := do
  let (c1, m1, p1) ← m.encode rng 0 [b1] 0
  let (d1, m2) ← m1.decodeS c1 (some 1)
  let (c2, m3, _) ← m2.encode rng p1 [b2] 0
  let (d2, _) ← m3.decodeS c2 (some 1)
  .ok (d1, d2)

/-- **C06 (negation for stateful encoders).** A scrambler in front of a block code loses
synchronisation as soon as a frame needed padding: decoding the padding advances the receiving
register further than encoding advanced the transmitting one. The first frame is always decoded
correctly; the second is inverted whenever two neighbouring key bits differ. -/
theorem C06_scrambler_desynchronises (s : Scrambler3GPP) (hs : s.tx = s.rx)
    (hkey : (s.tx.generateSequence 3).1 = [false, true, false] ∨
            (s.tx.generateSequence 3).1 = [true, true, false] ∨
            (s.tx.generateSequence 3).1 = [false, false, true] ∨
            (s.tx.generateSequence 3).1 = [true, false, true])
    (rng : Nat → Bool) (b1 b2 : Bool) :
    twoFrames (scrambledChain s) rng b1 b2 = .ok ([b1], [!b2]) := by
  obtain ⟨tx, rx⟩ := s
  simp only at hs hkey
  subst hs
  simp only [Prng.generateSequence] at hkey
  have hk1 : ∀ (p : Prng), p.generateSequence 1 = ([p.generate.1], p.generate.2) := fun p => rfl
  simp only [List.cons.injEq, and_true] at hkey
  simp [twoFrames, scrambledChain, Manager.encode, encodeChain, encodeStage, scramblerEncoder,
    repetitionEncoder, encodeBlocks, drawBits, Scrambler3GPP.encode, Scrambler3GPP.decode,
    repetitionEncode, Np.tile, Manager.decodeS, Manager.bitBlockSize, bitBlockSizeOf,
    blockSizeLoop, Manager.codeBlockSize, decodeChain, decodeStage, decodeBlocks,
    repetitionDecode, bind, Except.bind, pure, Except.pure, hk1, List.range_succ,
    Except.toOption]
  rcases hkey with ⟨h1, h2, h3⟩ | ⟨h1, h2, h3⟩ | ⟨h1, h2, h3⟩ | ⟨h1, h2, h3⟩ <;>
    simp [h1, h2, h3]

-- Non-vacuity: a scrambler constructed from a four-bit seed has such a key sequence.
set_option maxRecDepth 100000 in
example : ((Scrambler3GPP.new [false, true, false, true]).map
    fun s => (s.tx.generateSequence 3).1).toOption = some [true, true, false] := by
  decide +kernel

end Verif.Fec
