import Verif.Fec.Model
import Verif.Fec.BlockCodes

/-!
# C06, C07, C43: channel coding chains (`EncoderManager`)
-/

namespace Verif.Fec

variable {σ : Type}

/-! ## Specification vocabulary -/

/-- A well-behaved block code: positive block sizes, `encode` maps `K` bits to `L` bits, `decode`
inverts it in every internal state (e.g. repetition code, interleaver, CRC with check bits). -/
structure Invertible (e : Encoder σ) : Prop where
  Kpos : 1 ≤ e.K
  Lpos : 1 ≤ e.L
  enc_len : ∀ s x, x.length = e.K → (e.enc s x).1.length = e.L
  dec_len : ∀ s y, y.length = e.L → (e.dec s y).1.length = e.K
  inv : ∀ s s' x, x.length = e.K → (e.dec s' (e.enc s x).1).1 = x

/-- Number of blocks needed for `n` bits. -/
def blocks (K n : Nat) : Nat := (n + K - 1) / K

/-- Length of the code generated from `n` data bits by a list of enabled block codes `(K, L)`. -/
def codeLength : List (Nat × Nat) → Nat → Nat
  | [], n => n
  | (K, L) :: ks, n => codeLength ks (blocks K n * L)

/-- Does some stage need padding, when started with `n` bits? -/
def needsPadding : List (Nat × Nat) → Nat → Prop
  | [], _ => False
  | (K, L) :: ks, n => ¬ K ∣ n ∨ needsPadding ks (blocks K n * L)

/-- Block sizes of the enabled encoders in execution order. -/
def sizes (es : List (Encoder σ)) : List (Nat × Nat) :=
  (es.filter (·.enabled)).map fun e => (e.K, e.L)

/-- Nested block sizes: each code block length divides the next stage's data block length. -/
def Nested : List (Nat × Nat) → Prop
  | [] => True
  | [_] => True
  | (_, L) :: (K, L') :: ks => L ∣ K ∧ Nested ((K, L') :: ks)

/-! ## Helper lemmas -/

theorem blocks_mul_ge (K n : Nat) (hK : 1 ≤ K) : n ≤ blocks K n * K := by
  unfold blocks
  have := Nat.div_add_mod (n + K - 1) K
  have h2 := Nat.mod_lt (n + K - 1) (show 0 < K by omega)
  have : K * ((n + K - 1) / K) = (n + K - 1) / K * K := Nat.mul_comm _ _
  omega

theorem blocks_mul_lt (K n : Nat) (hK : 1 ≤ K) : blocks K n * K < n + K := by
  unfold blocks
  have := Nat.div_mul_le_self (n + K - 1) K
  omega

theorem blocks_mul_eq_iff (K n : Nat) (hK : 1 ≤ K) : blocks K n * K = n ↔ K ∣ n := by
  constructor
  · intro h; exact ⟨blocks K n, by rw [Nat.mul_comm]; exact h.symm⟩
  · rintro ⟨k, rfl⟩
    unfold blocks
    have : (K * k + K - 1) / K = k := by
      have : K * k + K - 1 = (K - 1) + K * k := by omega
      rw [this, Nat.add_mul_div_left _ _ (by omega : 0 < K), Nat.div_eq_of_lt (by omega),
        Nat.zero_add]
    rw [this, Nat.mul_comm]

theorem drawBits_length (rng : Nat → Bool) (pos n : Nat) : (drawBits rng pos n).length = n := by
  simp [drawBits]

/-- Encoding `n` full blocks succeeds, has the right length and is undone block by block. -/
theorem encodeBlocks_spec (e : Encoder σ) (he : Invertible e) (n : Nat) (s : σ) (d : List Bool)
    (hd : d.length = n * e.K) :
    ∃ c s1, encodeBlocks e n s d = .ok (c, s1) ∧ c.length = n * e.L ∧
      ∀ (s' : σ) (m : Nat) (rest : List Bool), rest.length = m * e.L →
        ∃ t d2, decodeBlocks e (n + m) s' (c ++ rest) = .ok (d ++ d2, t) ∧
          d2.length = m * e.K := by
  induction n generalizing s d with
  | zero =>
    have hnil : d = [] := List.length_eq_zero_iff.mp (by simpa using hd)
    subst hnil
    refine ⟨[], s, rfl, by simp, ?_⟩
    intro s' m rest hrest
    simp only [List.nil_append, Nat.zero_add]
    -- decoding arbitrary blocks succeeds
    induction m generalizing s' rest with
    | zero => exact ⟨s', [], rfl, by simp⟩
    | succ m ih =>
      have hlen : (rest.take e.L).length = e.L := by
        rw [List.length_take, hrest]
        have : (m + 1) * e.L = m * e.L + e.L := by ring
        omega
      have hdrop : (rest.drop e.L).length = m * e.L := by
        rw [List.length_drop, hrest]
        have : (m + 1) * e.L = m * e.L + e.L := by ring
        omega
      obtain ⟨t, d2, h1, h2⟩ := ih (e.dec s' (rest.take e.L)).2 (rest.drop e.L) hdrop
      have hk := he.dec_len s' _ hlen
      refine ⟨t, (e.dec s' (rest.take e.L)).1 ++ d2, ?_, ?_⟩
      · simp only [decodeBlocks, hk, ne_eq, not_true_eq_false, if_false, bind, Except.bind, pure,
          Except.pure, h1]
      · rw [List.length_append, hk, h2]; ring
  | succ n ih =>
    have hlen : (d.take e.K).length = e.K := by
      rw [List.length_take, hd]
      have : (n + 1) * e.K = n * e.K + e.K := by ring
      omega
    have hdrop : (d.drop e.K).length = n * e.K := by
      rw [List.length_drop, hd]
      have : (n + 1) * e.K = n * e.K + e.K := by ring
      omega
    have hL := he.enc_len s _ hlen
    obtain ⟨c, s1, h1, h2, h3⟩ := ih (e.enc s (d.take e.K)).2 (d.drop e.K) hdrop
    refine ⟨(e.enc s (d.take e.K)).1 ++ c, s1, ?_, ?_, ?_⟩
    · simp only [encodeBlocks, hL, ne_eq, not_true_eq_false, if_false, bind, Except.bind, pure,
        Except.pure, h1]
    · rw [List.length_append, hL, h2]; ring
    · intro s' m rest hrest
      have htake : ((e.enc s (d.take e.K)).1 ++ c ++ rest).take e.L = (e.enc s (d.take e.K)).1 := by
        rw [List.append_assoc, List.take_append_of_le_length (by omega), ← hL, List.take_length]
      have hdr : ((e.enc s (d.take e.K)).1 ++ c ++ rest).drop e.L = c ++ rest := by
        rw [List.append_assoc, ← hL, List.drop_left]
      have hinv := he.inv s s' _ hlen
      obtain ⟨t, d2, h4, h5⟩ := h3 (e.dec s' (e.enc s (d.take e.K)).1).2 m rest hrest
      refine ⟨t, d2, ?_, h5⟩
      have e1 : n + 1 + m = (n + m) + 1 := by omega
      rw [e1]
      simp only [decodeBlocks, htake, hdr, hinv, hlen, ne_eq, not_true_eq_false, if_false, bind,
        Except.bind, pure, Except.pure, h4]
      rw [← List.append_assoc, List.take_append_drop]

/-- One encoding stage followed by decoding of anything that starts with its output. -/
theorem encodeStage_spec (rng : Nat → Bool) (e : Encoder σ) (he : Invertible e)
    (hen : e.enabled = true) (pad : Bool) (pos : Nat) (data : List Bool) :
    (pad = false ∧ ¬ e.K ∣ data.length ∧ encodeStage rng pad e pos data = .error .runtime) ∨
    ((pad = true ∨ e.K ∣ data.length) ∧
      ∃ c s1 p1, encodeStage rng pad e pos data = .ok (c, { e with st := s1 }, p1) ∧
        c.length = blocks e.K data.length * e.L ∧
        ∀ (s' : σ) (rest : List Bool), ∃ t d2,
          decodeStage { e with st := s' } (c ++ rest) = .ok (data ++ d2, { e with st := t })) := by
  have hge := blocks_mul_ge e.K data.length he.Kpos
  have hK0 : e.K ≠ 0 := by have := he.Kpos; omega
  have hL0 : e.L ≠ 0 := by have := he.Lpos; omega
  unfold encodeStage
  rw [if_neg (by simp [hen]), if_neg hK0]
  simp only []
  by_cases hcond : data.length < (data.length + e.K - 1) / e.K * e.K ∧ pad = false
  · left
    rw [if_pos hcond]
    refine ⟨hcond.2, ?_, rfl⟩
    intro hd
    have := (blocks_mul_eq_iff e.K data.length he.Kpos).mpr hd
    unfold blocks at this
    omega
  · right
    rw [if_neg hcond]
    have hpd : (data ++ drawBits rng pos ((data.length + e.K - 1) / e.K * e.K - data.length)).length
        = (data.length + e.K - 1) / e.K * e.K := by
      rw [List.length_append, drawBits_length]
      unfold blocks at hge
      omega
    refine ⟨?_, ?_⟩
    · by_cases hp : pad = false
      · right
        apply (blocks_mul_eq_iff e.K data.length he.Kpos).mp
        unfold blocks at hge ⊢
        have : ¬ data.length < (data.length + e.K - 1) / e.K * e.K := fun h => hcond ⟨h, hp⟩
        omega
      · left; simpa using hp
    obtain ⟨c, s1, h1, h2, h3⟩ := encodeBlocks_spec e he _ e.st _ hpd
    refine ⟨c, s1, _, by rw [h1]; rfl, h2, ?_⟩
    intro s' rest
    obtain ⟨t, d2, h4, _⟩ := h3 s' (rest.length / e.L)
      (rest.take (rest.length / e.L * e.L)) (by
        rw [List.length_take]
        exact min_eq_left (Nat.div_mul_le_self _ _))
    refine ⟨t, drawBits rng pos ((data.length + e.K - 1) / e.K * e.K - data.length) ++ d2, ?_⟩
    have hlenq : (c ++ rest).length / e.L = (data.length + e.K - 1) / e.K + rest.length / e.L := by
      rw [List.length_append, h2, Nat.add_comm, Nat.add_mul_div_right _ _ (by omega : 0 < e.L),
        Nat.add_comm]
    have htk : (c ++ rest).take ((c ++ rest).length / e.L * e.L) =
        c ++ rest.take (rest.length / e.L * e.L) := by
      rw [hlenq, Nat.add_mul, ← h2, List.take_append]
      rw [List.take_of_length_le (by omega), Nat.add_sub_cancel_left]
    unfold decodeStage
    rw [if_neg (by simp [hen]), if_neg hL0, htk, hlenq]
    have h4' : decodeBlocks { e with st := s' }
        ((data.length + e.K - 1) / e.K + rest.length / e.L) s'
        (c ++ rest.take (rest.length / e.L * e.L)) =
        .ok (data ++ drawBits rng pos ((data.length + e.K - 1) / e.K * e.K - data.length) ++ d2, t) := by
      rw [← h4]
      -- `decodeBlocks` does not look at the state field
      have hgen : ∀ (n : Nat) (u : σ) (z : List Bool),
          decodeBlocks { e with st := s' } n u z = decodeBlocks e n u z := by
        intro n
        induction n with
        | zero => intro u z; rfl
        | succ n ih => intro u z; simp only [decodeBlocks, ih]
      rw [hgen]
    simp only [h4', bind, Except.bind, List.append_assoc]

/-- Same encoders up to their internal state. -/
def SameUpToState (a b : Encoder σ) : Prop := ∃ s, b = { a with st := s }

/-- **C06 core**: for a chain of invertible encoders, decoding anything that starts with the
generated code returns something that starts with the data; and encoding fails exactly if padding
is needed but forbidden. -/
theorem encodeChain_spec (rng : Nat → Bool) (pad : Bool) (es : List (Encoder σ))
    (hes : ∀ e ∈ es, e.enabled = true → Invertible e) (pos : Nat) (data : List Bool) :
    (pad = false ∧ needsPadding (sizes es) data.length ∧
      encodeChain rng pad es pos data = .error .runtime) ∨
    ((pad = true ∨ ¬ needsPadding (sizes es) data.length) ∧
      ∃ c es1 p1, encodeChain rng pad es pos data = .ok (c, es1, p1) ∧
        c.length = codeLength (sizes es) data.length ∧
        List.Forall₂ SameUpToState es es1 ∧
        ∀ (es2 : List (Encoder σ)) (rest : List Bool), List.Forall₂ SameUpToState es es2 →
          ∃ es3 d2, decodeChain es2 (c ++ rest) = .ok (data ++ d2, es3)) := by
  induction es generalizing pos data with
  | nil =>
    right
    refine ⟨Or.inr (by simp [sizes, needsPadding]), data, [], pos, rfl, rfl, .nil, ?_⟩
    intro es2 rest h
    cases h
    exact ⟨[], rest, rfl⟩
  | cons e es ih =>
    have ihes := fun pos data => ih (fun x hx => hes x (by simp [hx])) pos data
    cases hen : e.enabled with
    | false =>
      have hsz : sizes (e :: es) = sizes es := by simp [sizes, hen]
      have hst : ∀ p d, encodeStage rng pad e p d = .ok (d, e, p) := by
        intro p d; simp [encodeStage, hen]
      rw [hsz]
      rcases ihes pos data with ⟨h1, h2, h3⟩ | ⟨h1, c, es1, p1, h2, h3, h4, h5⟩
      · left
        refine ⟨h1, h2, ?_⟩
        simp only [encodeChain, hst, bind, Except.bind, h3]
      · right
        refine ⟨h1, c, e :: es1, p1, ?_, h3, .cons ⟨e.st, rfl⟩ h4, ?_⟩
        · simp only [encodeChain, hst, bind, Except.bind, h2]
        · intro es2 rest hf
          cases hf with
          | cons ha hb =>
            next b bs =>
            obtain ⟨s, rfl⟩ := ha
            obtain ⟨es3, d2, h6⟩ := h5 bs rest hb
            refine ⟨{ e with st := s } :: es3, d2, ?_⟩
            simp only [decodeChain, h6, bind, Except.bind, decodeStage, hen, Bool.not_false,
              if_true]
    | true =>
      have hsz : sizes (e :: es) = (e.K, e.L) :: sizes es := by simp [sizes, hen]
      have he := hes e (by simp) hen
      rw [hsz]
      rcases encodeStage_spec rng e he hen pad pos data with ⟨h1, h2, h3⟩ | ⟨h1, c, s1, p1, h2, h3, h4⟩
      · left
        refine ⟨h1, Or.inl h2, ?_⟩
        simp only [encodeChain, h3, bind, Except.bind]
      · rcases ihes p1 c with ⟨g1, g2, g3⟩ | ⟨g1, c2, es1, p2, g2, g3, g4, g5⟩
        · left
          refine ⟨g1, ?_, ?_⟩
          · rw [h3] at g2; exact Or.inr g2
          · simp only [encodeChain, h2, bind, Except.bind, g3]
        · right
          refine ⟨?_, c2, { e with st := s1 } :: es1, p2, ?_, ?_, .cons ⟨s1, rfl⟩ g4, ?_⟩
          · rcases h1 with h1 | h1
            · exact Or.inl h1
            · rcases g1 with g1 | g1
              · exact Or.inl g1
              · right
                rw [h3] at g1
                rintro (h | h)
                · exact h h1
                · exact g1 h
          · simp only [encodeChain, h2, bind, Except.bind, g2]
          · rw [g3, h3]; rfl
          · intro es2 rest hf
            cases hf with
            | cons ha hb =>
              next b bs =>
              obtain ⟨s, rfl⟩ := ha
              obtain ⟨es3, d2, h6⟩ := g5 bs rest hb
              obtain ⟨t, d3, h7⟩ := h4 s d2
              refine ⟨{ e with st := t } :: es3, d3, ?_⟩
              simp only [decodeChain, h6, bind, Except.bind, h7]

theorem sameUpToState_sizes {es es1 : List (Encoder σ)} (h : List.Forall₂ SameUpToState es es1) :
    sizes es1 = sizes es := by
  induction h with
  | nil => rfl
  | cons ha _ ih =>
    next a b l1 l2 _ =>
    obtain ⟨s, rfl⟩ := ha
    unfold sizes at *
    cases hen : a.enabled <;> simp [hen, ih]

/-- The block-size computations only look at the sizes of the enabled encoders. -/
def codeBlockSizeOf (ks : List (Nat × Nat)) : Nat :=
  match ks.getLast? with
  | some (_, L) => L
  | none => 1

theorem codeBlockSize_eq (m : Manager σ) : m.codeBlockSize = codeBlockSizeOf (sizes m.encoders) := by
  unfold Manager.codeBlockSize codeBlockSizeOf sizes
  rw [List.getLast?_map, ← List.head?_reverse, ← List.filter_reverse, List.head?_filter]
  cases m.encoders.reverse.find? (·.enabled) <;> rfl

/-- `bit_block_size` on the list of sizes. -/
def blockSizeLoopOf : List (Nat × Nat) → Nat → Nat → Except PyErr Nat
  | [], b, _ => .ok b
  | (K, L) :: ks, b, nb =>
    if nb = 0 ∨ L = 0 ∨ K = 0 then .error .zeroDivision
    else blockSizeLoopOf ks (b * (K / nb)) (nb * (K / nb * L / K))

theorem blockSizeLoop_eq (es : List (Encoder σ)) (b nb : Nat) :
    blockSizeLoop es b nb = blockSizeLoopOf (sizes es) b nb := by
  induction es generalizing b nb with
  | nil => rfl
  | cons e es ih =>
    cases hen : e.enabled with
    | false => simp [blockSizeLoop, hen, ih, sizes]
    | true =>
      have hsz : sizes (e :: es) = (e.K, e.L) :: sizes es := by simp [sizes, hen]
      rw [hsz]
      simp [blockSizeLoop, blockSizeLoopOf, hen, ih]

/-- `bit_block_size` on sizes. -/
def bitBlockSizeOfSizes : List (Nat × Nat) → Except PyErr Nat
  | [] => .ok 1
  | (K, L) :: ks => blockSizeLoopOf ks K L

theorem bitBlockSize_eq (m : Manager σ) : m.bitBlockSize = bitBlockSizeOfSizes (sizes m.encoders) := by
  unfold Manager.bitBlockSize
  induction m.encoders with
  | nil => rfl
  | cons e es ih =>
    cases hen : e.enabled with
    | false => simpa [bitBlockSizeOf, hen, sizes] using ih
    | true =>
      have hsz : sizes (e :: es) = (e.K, e.L) :: sizes es := by simp [sizes, hen]
      rw [hsz]
      simp [bitBlockSizeOf, bitBlockSizeOfSizes, hen, blockSizeLoop_eq]

/-! ## C06 -/

/-- **C06 (partial: capacity check left open).** Encode any bits with any chain of invertible
encoders, with any admissible target length `n` (`0` = none) and any padding bits. Then decoding
the result in any later internal state and asking for the original number of bits returns exactly
the original bits, unless the manager's own block-size arithmetic claims that fewer bits fit: the
outcome is completely determined by the capacity `⌊len/code_block_size⌋ * bit_block_size`.
Missing: that the capacity always suffices. That is proved for nested block sizes
(`C06_nested_chain_roundtrip`) and false in general (`C06_misaligned_chain_fails`). -/
theorem C06_chain_roundtrip_partial (m : Manager σ) (htr : m.allowTruncating = true)
    (hes : ∀ e ∈ m.encoders, e.enabled = true → Invertible e)
    (rng : Nat → Bool) (pos n : Nat) (bits code : List Bool) (m1 : Manager σ) (p1 : Nat)
    (henc : m.encode rng pos bits n = .ok (code, m1, p1)) (bbs : Nat)
    (hbbs : m.bitBlockSize = .ok bbs) :
    m1.decode code (some bits.length) =
      if bits.length ≤ code.length / m.codeBlockSize * bbs then .ok bits else .error .runtime := by
  -- what encode returned
  have hmain : ∃ c es1 rest, m1 = { m with encoders := es1 } ∧ code = c ++ rest ∧
      List.Forall₂ SameUpToState m.encoders es1 ∧
      ∀ (es2 : List (Encoder σ)) (r : List Bool), List.Forall₂ SameUpToState m.encoders es2 →
          ∃ es3 d2, decodeChain es2 (c ++ r) = .ok (bits ++ d2, es3) := by
    unfold Manager.encode at henc
    rcases encodeChain_spec rng m.allowPadding m.encoders hes pos bits with
      ⟨_, _, h3⟩ | ⟨_, c, es1, p, h2, _, h4, h5⟩
    · rw [h3] at henc; cases henc
    · rw [h2] at henc
      simp only [bind, Except.bind] at henc
      split at henc
      · cases henc
      · split at henc
        · split at henc
          · cases henc
          · split at henc
            · cases henc
            · cases henc
              exact ⟨c, es1, _, rfl, rfl, h4, h5⟩
        · cases henc
          exact ⟨code, es1, [], rfl, by simp, h4, h5⟩
  obtain ⟨c, es1, rest, rfl, rfl, h4, h5⟩ := hmain
  have hsz := sameUpToState_sizes h4
  have hcb : (Manager.codeBlockSize { m with encoders := es1 }) = m.codeBlockSize := by
    rw [codeBlockSize_eq, codeBlockSize_eq, hsz]
  have hbb : (Manager.bitBlockSize { m with encoders := es1 }) = .ok bbs := by
    rw [← hbbs, bitBlockSize_eq, bitBlockSize_eq, hsz]
  have hcb0 : m.codeBlockSize ≠ 0 := by
    unfold Manager.codeBlockSize
    split
    · next e he =>
      have hm : e ∈ m.encoders := by
        have := List.mem_of_find?_eq_some he
        simpa using this
      have hen : e.enabled = true := by simpa using List.find?_some he
      have := (hes e hm hen).Lpos
      omega
    · omega
  obtain ⟨es3, d2, h6⟩ := h5 es1 rest h4
  unfold Manager.decode Manager.decodeS
  rw [hbb, hcb]
  simp only [bind, Except.bind, hcb0, if_false, pure, Except.pure]
  by_cases hcap : bits.length ≤ (c ++ rest).length / m.codeBlockSize * bbs
  · rw [if_neg (by omega : ¬ bits.length > _), if_pos hcap]
    rw [if_neg (by simp [htr])]
    simp only [h6, List.take_left]
  · rw [if_pos (by omega : bits.length > _), if_neg hcap]

theorem blocks_mono (K : Nat) {a b : Nat} (h : a ≤ b) : blocks K a ≤ blocks K b := by
  unfold blocks; exact Nat.div_le_div_right (by omega)

/-- Capacity of nested chains (loop invariant of `bit_block_size`). -/
theorem nested_capacity (ks : List (Nat × Nat)) (K0 L0 : Nat)
    (hpos : ∀ k ∈ (K0, L0) :: ks, 1 ≤ k.1 ∧ k.1 ≤ k.2) (hnest : Nested ((K0, L0) :: ks))
    (b nb : Nat) (hnb : 1 ≤ nb) (hnb2 : nb ≤ L0) (nblk : Nat) :
    ∃ bbs, blockSizeLoopOf ks b nb = .ok bbs ∧
      nblk * b ≤ codeLength ks (nblk * L0) / codeBlockSizeOf ((K0, L0) :: ks) * bbs := by
  induction ks generalizing K0 L0 b nb nblk with
  | nil =>
    refine ⟨b, rfl, ?_⟩
    have hL : 1 ≤ L0 := by omega
    simp only [codeLength, codeBlockSizeOf, List.getLast?_singleton]
    rw [Nat.mul_div_cancel _ (by omega : 0 < L0)]
  | cons k ks ih =>
    obtain ⟨K, L⟩ := k
    have hk := hpos (K, L) (by simp)
    simp only at hk
    obtain ⟨hdiv, hnest'⟩ := hnest
    have hKL : L0 ≤ K := Nat.le_of_dvd (by omega) hdiv
    have hL : 1 ≤ L := by omega
    have hreps : 1 ≤ K / nb := Nat.div_pos (by omega) (by omega)
    have hnb1 : 1 ≤ nb * (K / nb * L / K) := by
      have : 1 ≤ K / nb * L / K := by
        apply Nat.div_pos _ (by omega)
        calc K ≤ L := hk.2
          _ = 1 * L := (Nat.one_mul L).symm
          _ ≤ K / nb * L := Nat.mul_le_mul_right L hreps
      exact Nat.mul_pos hnb this
    have hnb3 : nb * (K / nb * L / K) ≤ L := by
      calc nb * (K / nb * L / K) ≤ nb * (K / nb * L) / K := Nat.mul_div_le_mul_div_assoc _ _ _
        _ = (nb * (K / nb)) * L / K := by rw [Nat.mul_assoc]
        _ ≤ K * L / K := Nat.div_le_div_right (Nat.mul_le_mul_right L (Nat.mul_div_le K nb))
        _ = L := Nat.mul_div_cancel_left L (by omega)
    obtain ⟨bbs, h1, h2⟩ := ih K L (fun x hx => hpos x (by simp only [List.mem_cons] at hx ⊢; exact Or.inr hx)) hnest'
      (b * (K / nb)) (nb * (K / nb * L / K)) hnb1 hnb3 (blocks K (nblk * L0))
    refine ⟨bbs, ?_, ?_⟩
    · rw [blockSizeLoopOf, if_neg (by omega)]
      exact h1
    · have hcb : codeBlockSizeOf ((K0, L0) :: (K, L) :: ks) = codeBlockSizeOf ((K, L) :: ks) := by
        simp [codeBlockSizeOf]
      rw [hcb]
      refine le_trans ?_ h2
      -- number of blocks times repetitions covers the earlier blocks
      have hge := blocks_mul_ge K (nblk * L0) (by omega)
      have hq : nblk ≤ blocks K (nblk * L0) * (K / nb) := by
        obtain ⟨r, rfl⟩ := hdiv
        have hr : r ≤ L0 * r / nb := by
          rw [Nat.le_div_iff_mul_le (by omega), Nat.mul_comm L0 r]
          exact Nat.mul_le_mul_left r hnb2
        have : nblk * L0 ≤ (blocks (L0 * r) (nblk * L0) * r) * L0 := by
          calc nblk * L0 ≤ blocks (L0 * r) (nblk * L0) * (L0 * r) := hge
            _ = _ := by ring
        have h3 : nblk ≤ blocks (L0 * r) (nblk * L0) * r :=
          Nat.le_of_mul_le_mul_right this (by omega)
        exact le_trans h3 (Nat.mul_le_mul_left _ hr)
      calc nblk * b ≤ (blocks K (nblk * L0) * (K / nb)) * b := Nat.mul_le_mul_right b hq
        _ = blocks K (nblk * L0) * (b * (K / nb)) := by ring

/-- **C06 for nested block sizes.** If every code block length divides the next stage's data block
length (and codes do not shrink blocks), the chain is transparent: decoding returns the original
bits for every data word, every admissible target length and all padding bits. -/
theorem C06_nested_chain_roundtrip (m : Manager σ) (htr : m.allowTruncating = true)
    (hes : ∀ e ∈ m.encoders, e.enabled = true → Invertible e ∧ e.K ≤ e.L)
    (hnest : Nested (sizes m.encoders))
    (rng : Nat → Bool) (pos n : Nat) (bits code : List Bool) (m1 : Manager σ) (p1 : Nat)
    (henc : m.encode rng pos bits n = .ok (code, m1, p1)) :
    m1.decode code (some bits.length) = .ok bits := by
  have hinv : ∀ e ∈ m.encoders, e.enabled = true → Invertible e := fun e h1 h2 => (hes e h1 h2).1
  have hcl : codeLength (sizes m.encoders) bits.length ≤ code.length := by
    unfold Manager.encode at henc
    rcases encodeChain_spec rng m.allowPadding m.encoders hinv pos bits with
      ⟨_, _, h3⟩ | ⟨_, c, es1, p, h2, h3, _, _⟩
    · rw [h3] at henc; cases henc
    · rw [h2] at henc
      simp only [bind, Except.bind] at henc
      split at henc
      · cases henc
      · split at henc
        · split at henc
          · cases henc
          · split at henc
            · cases henc
            · cases henc
              rw [List.length_append, h3]; omega
        · cases henc
          rw [h3]
  have hpos : ∀ k ∈ sizes m.encoders, 1 ≤ k.1 ∧ k.1 ≤ k.2 := by
    intro k hk
    simp only [sizes, List.mem_map, List.mem_filter] at hk
    obtain ⟨e, ⟨he1, he2⟩, rfl⟩ := hk
    exact ⟨(hinv e he1 he2).Kpos, (hes e he1 he2).2⟩
  have hcap : ∃ bbs, m.bitBlockSize = .ok bbs ∧
      bits.length ≤ codeLength (sizes m.encoders) bits.length / m.codeBlockSize * bbs := by
    rw [bitBlockSize_eq, codeBlockSize_eq]
    cases hs : sizes m.encoders with
    | nil => exact ⟨1, rfl, by simp [codeLength, codeBlockSizeOf]⟩
    | cons k ks =>
      obtain ⟨K, L⟩ := k
      rw [hs] at hpos hnest
      have hk := hpos (K, L) (by simp)
      simp only at hk
      obtain ⟨bbs, h1, h2⟩ := nested_capacity ks K L hpos hnest K L (by omega) le_rfl
        (blocks K bits.length)
      refine ⟨bbs, h1, ?_⟩
      exact le_trans (blocks_mul_ge K bits.length hk.1) h2
  obtain ⟨bbs, hb1, hb2⟩ := hcap
  rw [C06_chain_roundtrip_partial m htr hinv rng pos n bits code m1 p1 henc bbs hb1]
  rw [if_pos]
  exact le_trans hb2 (Nat.mul_le_mul_right _ (Nat.div_le_div_right hcl))

/-! ### The concrete encoders of the repository are invertible -/

theorem repetitionEncoder_invertible (K M : Nat) (hK : 1 ≤ K) (hM : M % 2 = 1) (st : σ) :
    Invertible (repetitionEncoder K M st) where
  Kpos := hK
  Lpos := Nat.mul_pos (by omega) hK
  enc_len := fun _ x hx => (C01_repetition_encode_layout K M x hx).1
  dec_len := by
    intro s y hy
    obtain ⟨d, h1, h2, _⟩ := C01_repetition_majority K M hM y hy
    simp only [repetitionEncoder, h1]
    exact h2
  inv := by
    intro s s' x hx
    have h := C01_repetition_corrects_minority_errors K M hM x (repetitionEncode M x) hx
      (C01_repetition_encode_layout K M x hx).1 (by intro i hi; simp; omega)
    simp only [repetitionEncoder, h]
    rfl

theorem interleaverEncoder_invertible (N M : Nat) (hN : 1 ≤ N) (hM : 0 < M) (hd : M ∣ N) (st : σ) :
    Invertible (interleaverEncoder N M st) where
  Kpos := hN
  Lpos := hN
  enc_len := by
    intro s x hx
    have hx' : x.length = N := hx
    obtain ⟨y, h1, h2, _⟩ := C02_interleaver_positions M x hM (by rw [hx']; exact hd)
    simp only [interleaverEncoder, h1]
    exact h2.trans hx'
  dec_len := by
    intro s y hy
    have hy' : y.length = N := hy
    obtain ⟨x, h1, h2, _⟩ := deinterleaver_get M y hM (by rw [hy']; exact hd)
    simp only [interleaverEncoder, h1]
    exact h2.trans hy'
  inv := by
    intro s s' x hx
    have hx' : x.length = N := hx
    obtain ⟨y, h1, h2⟩ := C02_interleaver_roundtrip M x hM (by rw [hx']; exact hd)
    simp only [interleaverEncoder, h1]
    change (interleaverDecode M y).toOption.getD [] = x
    rw [h2]
    rfl

/-- **C06 instance**: repetition code followed by an interleaver over one code block. -/
theorem C06_repetition_interleaver_roundtrip (K M B : Nat) (hK : 1 ≤ K) (hM : M % 2 = 1)
    (hB : 0 < B) (hd : B ∣ M * K) (rng : Nat → Bool) (n : Nat) (bits code : List Bool)
    (m1 : Manager Unit) (p1 : Nat)
    (henc : Manager.encode (σ := Unit)
      { encoders := [repetitionEncoder K M (), interleaverEncoder (M * K) B ()],
        allowPadding := true, allowTruncating := true } rng 0 bits n = .ok (code, m1, p1)) :
    m1.decode code (some bits.length) = .ok bits := by
  refine C06_nested_chain_roundtrip _ rfl ?_ ?_ rng 0 n bits code m1 p1 henc
  · intro e he _
    simp only [List.mem_cons, List.not_mem_nil, or_false] at he
    rcases he with rfl | rfl
    · refine ⟨repetitionEncoder_invertible K M hK hM (), ?_⟩
      show K ≤ M * K
      calc K = 1 * K := (Nat.one_mul K).symm
        _ ≤ M * K := Nat.mul_le_mul_right K (by omega)
    · exact ⟨interleaverEncoder_invertible _ B (Nat.mul_pos (by omega) hK) hB hd (), le_rfl⟩
  · show Nested [(K, M * K), (M * K, M * K)]
    exact ⟨dvd_refl _, trivial⟩

/-- Default repetition code (32 bits, 3 repetitions) together with a 48-bit interleaver. -/
def misaligned : Manager Unit :=
  { encoders := [repetitionEncoder 32 3 (), interleaverEncoder 48 4 ()]
    allowPadding := true
    allowTruncating := true }

/-- **C06 (negation).** For non-nested block sizes the code fails although both encoders are
invertible: with `RepetitionEncoder(32, 3)` and `BlockInterleaver(48, 4)` the manager's
`bit_block_size` is zero, and every non-empty data word that encodes at all is refused by
`decode` with a `RuntimeError`. -/
theorem C06_misaligned_chain_fails :
    (∀ e ∈ misaligned.encoders, Invertible e) ∧
    misaligned.bitBlockSize = .ok 0 ∧
    (∀ (rng : Nat → Bool) (bits : List Bool), ∃ code m1 p1,
      misaligned.encode rng 0 bits 0 = .ok (code, m1, p1) ∧
      (bits ≠ [] → m1.decode code (some bits.length) = .error .runtime)) := by
  have hinv : ∀ e ∈ misaligned.encoders, Invertible e := by
    intro e he
    simp only [misaligned, List.mem_cons, List.not_mem_nil, or_false] at he
    rcases he with rfl | rfl
    · exact repetitionEncoder_invertible 32 3 (by omega) rfl ()
    · exact interleaverEncoder_invertible 48 4 (by omega) (by omega) (by decide) ()
  have hbbs : misaligned.bitBlockSize = .ok 0 := by
    rw [bitBlockSize_eq]; rfl
  refine ⟨hinv, hbbs, ?_⟩
  intro rng bits
  have henc : ∃ code m1 p1, misaligned.encode rng 0 bits 0 = .ok (code, m1, p1) := by
    unfold Manager.encode
    rcases encodeChain_spec rng misaligned.allowPadding misaligned.encoders
      (fun e he _ => hinv e he) 0 bits with ⟨h1, _, _⟩ | ⟨_, c, es1, p, h2, _⟩
    · exact absurd h1 (by decide)
    · exact ⟨c, { misaligned with encoders := es1 }, p, by rw [h2]; rfl⟩
  obtain ⟨code, m1, p1, h⟩ := henc
  refine ⟨code, m1, p1, h, ?_⟩
  intro hne
  rw [C06_chain_roundtrip_partial misaligned rfl (fun e he _ => hinv e he) rng 0 0 bits code m1 p1 h
    0 hbbs, if_neg]
  have : bits.length ≠ 0 := fun h => hne (List.length_eq_zero_iff.mp h)
  omega

/-! ## C07 -/

/-- Outcome of the code-length adaptation, in terms of lengths only (specification). -/
def lengthContract (pad : Bool) (ks : List (Nat × Nat)) (dataLen n : Nat) : Except PyErr Nat :=
  let len := codeLength ks dataLen
  if n = 0 then .ok len
  else if n < len then .error .runtime
  else if n = len then .ok n
  else if pad = false then .error .runtime
  else if n - len < codeBlockSizeOf ks then .ok n
  else .error .value

/-- **C07 (length and error contract of `encode`).** For chains of invertible encoders the outcome
is determined by the lengths alone: a `RuntimeError` if a stage needs forbidden padding, otherwise
exactly the outcome of `lengthContract`; on success the code has exactly that length. -/
theorem C07_encode_contract (m : Manager σ)
    (hes : ∀ e ∈ m.encoders, e.enabled = true → Invertible e)
    (rng : Nat → Bool) (pos n : Nat) (bits : List Bool) :
    (m.encode rng pos bits n).map (fun r => r.1.length) =
      open Classical in
      if m.allowPadding = false ∧ needsPadding (sizes m.encoders) bits.length then .error .runtime
      else lengthContract m.allowPadding (sizes m.encoders) bits.length n := by
  classical
  rcases encodeChain_spec rng m.allowPadding m.encoders hes pos bits with
    ⟨h1, h2, h3⟩ | ⟨h1, c, es1, p, h2, h3, _, _⟩
  · rw [if_pos ⟨h1, h2⟩]
    unfold Manager.encode
    rw [h3]
    rfl
  · rw [if_neg (by
      rintro ⟨ha, hb⟩
      rcases h1 with h1 | h1
      · rw [ha] at h1; cases h1
      · exact h1 hb)]
    unfold Manager.encode lengthContract
    rw [h2, codeBlockSize_eq]
    simp only [bind, Except.bind, ← h3]
    by_cases hn0 : n = 0
    · subst hn0
      simp [Except.map]
    · rw [if_neg hn0]
      by_cases hlt : n < c.length
      · rw [if_pos ⟨hn0, hlt⟩, if_pos hlt]; rfl
      · rw [if_neg (fun h => hlt h.2), if_neg hlt]
        by_cases heq : n = c.length
        · rw [if_neg (by omega), if_pos heq]
          simp [Except.map, heq]
        · rw [if_pos ⟨hn0, by omega⟩, if_neg heq]
          by_cases hpad : m.allowPadding = false
          · rw [if_pos hpad, if_pos hpad]; rfl
          · rw [if_neg hpad, if_neg hpad]
            by_cases hge : n - c.length < codeBlockSizeOf (sizes m.encoders)
            · rw [if_neg (by omega), if_pos hge]
              simp only [Except.map, List.length_append, drawBits_length]
              congr 1; omega
            · rw [if_pos (by omega), if_neg hge]; rfl

/-- Add encoders one after the other to an empty manager. -/
def addAll (pad trunc : Bool) (hist : List (Encoder σ)) : Manager σ :=
  hist.foldl (fun m e => m.addEncoder e)
    { encoders := [], allowPadding := pad, allowTruncating := trunc }

/-- **C07 (execution order).** After adding any encoders in any order the manager holds exactly
those encoders, in ascending order of data block size, ties in the order of adding. -/
theorem C07_execution_order (pad trunc : Bool) (hist : List (Encoder σ)) :
    let es := (addAll pad trunc hist).encoders
    es.Perm hist ∧ es.Pairwise (fun a b => a.K ≤ b.K) ∧
    ∀ k, es.filter (fun e => e.K = k) = hist.filter (fun e => e.K = k) := by
  have key : ∀ (hist : List (Encoder σ)) (m : Manager σ) (done : List (Encoder σ)),
      m.encoders.Perm done → m.encoders.Pairwise (fun a b => a.K ≤ b.K) →
      (∀ k, m.encoders.filter (fun e => e.K = k) = done.filter (fun e => e.K = k)) →
      (hist.foldl (fun m e => m.addEncoder e) m).encoders.Perm (done ++ hist) ∧
      (hist.foldl (fun m e => m.addEncoder e) m).encoders.Pairwise (fun a b => a.K ≤ b.K) ∧
      ∀ k, (hist.foldl (fun m e => m.addEncoder e) m).encoders.filter (fun e => e.K = k) =
        (done ++ hist).filter (fun e => e.K = k) := by
    intro hist
    induction hist with
    | nil => intro m done h1 h2 h3; simpa using ⟨h1, h2, h3⟩
    | cons e hist ih =>
      intro m done h1 h2 h3
      have hstep := ih (m.addEncoder e) (done ++ [e]) ?_ ?_ ?_
      · simpa [List.append_assoc] using hstep
      · exact (List.mergeSort_perm _ _).trans (h1.append_right [e])
      · have := List.pairwise_mergeSort (le := fun a b : Encoder σ => decide (a.K ≤ b.K))
          (by intro a b c hab hbc; simp at *; omega) (by intro a b; simp; omega)
          (m.encoders ++ [e])
        simpa [Manager.addEncoder] using this
      · intro k
        have hsub : List.Sublist ((m.encoders ++ [e]).filter (fun e => e.K = k))
            ((m.encoders ++ [e]).mergeSort fun a b => decide (a.K ≤ b.K)) := by
          apply List.sublist_mergeSort (le := fun a b : Encoder σ => decide (a.K ≤ b.K))
            (by intro a b c hab hbc; simp at *; omega) (by intro a b; simp; omega)
          · apply List.Pairwise.imp_of_mem (R := fun _ _ => True)
            · intro a b ha hb _
              simp only [List.mem_filter, decide_eq_true_eq] at ha hb
              simp only [decide_eq_true_eq]
              omega
            · exact List.pairwise_of_forall (fun _ _ => trivial)
          · exact List.filter_sublist
        have hsub2 := hsub.filter (fun e : Encoder σ => decide (e.K = k))
        rw [List.filter_filter] at hsub2
        simp only [Bool.and_self] at hsub2
        have hperm : ((m.encoders ++ [e]).mergeSort fun a b => decide (a.K ≤ b.K)).Perm
            (m.encoders ++ [e]) := List.mergeSort_perm _ _
        have hlen := (hperm.filter (fun e : Encoder σ => decide (e.K = k))).length_eq
        have heq := hsub2.eq_of_length hlen.symm
        show List.filter (fun e => decide (e.K = k))
          ((m.encoders ++ [e]).mergeSort fun a b => decide (a.K ≤ b.K)) = _
        rw [← heq, List.filter_append, List.filter_append, h3 k]
  have := key hist { encoders := [], allowPadding := pad, allowTruncating := trunc } []
    (List.Perm.refl _) List.Pairwise.nil (fun k => rfl)
  simpa [addAll] using this

-- Non-vacuity: 40 bits through the default repetition code and a matching interleaver.
example (rng : Nat → Bool) (bits : List Bool) (h : bits.length = 40) :
    ((Manager.encode (σ := Unit)
      { encoders := [repetitionEncoder 32 3 (), interleaverEncoder 96 4 ()],
        allowPadding := true, allowTruncating := true } rng 0 bits 200).map
      (fun r => r.1.length)) = .ok 200 := by
  classical
  rw [C07_encode_contract _ _ rng 0 200 bits]
  · simp only [sizes, h]
    rw [if_neg (by simp)]
    rfl
  · intro e he _
    simp only [List.mem_cons, List.not_mem_nil, or_false] at he
    rcases he with rfl | rfl
    · exact repetitionEncoder_invertible 32 3 (by omega) rfl ()
    · exact interleaverEncoder_invertible 96 4 (by omega) (by omega) (by decide) ()
example : Nested [(32, 96), (96, 96)] ∧ ¬ Nested [(32, 96), (48, 48)] := by
  refine ⟨⟨by decide, trivial⟩, ?_⟩
  rintro ⟨h, _⟩
  exact absurd h (by decide)

end Verif.Fec
